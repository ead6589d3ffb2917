# Properties added as the model grew.
p('Emitters only emit values their configuration allows',
  'Declare for every object a set of values such that items, static values and iterators given to it lie in the set, the set of a Word contains every string that can be spelled with lengths and characters from the sets of its children, that of a Text every text of words and separators from the sets of its children, and wrapper functions map values of their sources into the set. Then however objects are created, called, reset, seeded and reassigned, every value an emitter emits lies in its set, and the items, weights, shuffled list and position of every Choice stay consistent. (Programs must not let an assignment replace=False fail, see C19, give word lengths or repeats below 0 or word counts below 1, or ask for a negative number of values.)',
  'all programs using the library, all declared sets, all nesting', 'all programs', 'emitter.py:Emitter.__call__', 'emitters/choice.py:Choice', 'emitters/text.py:Text', 'emitters/wrappers.py:WrapMany', 'emitters/fixed.py:Iterative')
p('num_unique_values bounds what a tree of emitters can emit',
  'If num_unique_values of an emitter is the number q, there is a set of at most q values that contains every value the emitter emits from then on, whatever else the program creates, calls, resets or seeds. For Word and Text q is computed from the counts of the children (sum of n^k over the lengths k; sum of m^k * p^(k-1) over the word counts k), which may be Word or Text emitters themselves, and is None if some child cannot be counted. (A Choice without replacement counts what is left, so it is asked before anything is handed out. Attributes are not assigned after construction: Word and Text do not notice that a child changes.)',
  'all programs that assign no attributes, all nesting of emitters, all later histories', 'all programs', 'emitters/text.py:Word._update_num_unique_vals', 'emitters/text.py:Text._update_num_unique_vals', 'emitters/choice.py:Choice.num_unique_values', 'mixins.py:ItemsMixin.num_unique_values')
p('Using emitters, fields and schemas always ends',
  'Calling an emitter or field, reset, seed, making documents, resetting and seeding schemas, assigning wrappers and actions, and constructing emitters and fields never loops forever and never raises RecursionError if the recursion limit exceeds the nesting depth: the outcome is a value or another exception. (No emitter is below itself, weights are not negative, wrapper functions end, iterators are not empty, and the number arguments are as in C60.) In programs that only construct and use objects no emitter can be below itself, and iterators cannot be empty.',
  'all object graphs without cycles, all states, all arguments', 'all graphs', 'emitter.py:Emitter.__call__', 'emitters/text.py:Text._get_words_iterator', 'mathtools.py:weighted_shuffle', 'emitters/fixed.py:Iterative.emit_many', 'mixins.py:RandomWithChildrenMixin.reset', 'profile.py:Schema.__call__')
p('The recursion limit does not influence results',
  'Calls, reset, seed, documents, assigning wrappers and actions, and constructors give the same outcome and leave the same state for all recursion limits above the nesting depth; neither do they depend on how deep in other calls they are made. (No emitter is below itself.)',
  'all object graphs without cycles, all states, all limits', 'all graphs and limits', 'emitter.py:Emitter.__call__', 'mixins.py:RandomWithChildrenMixin', 'profile.py:Schema.__call__', 'group.py:GroupMixin.do_method')
p('Assigning a child emitter replaces that reference and nothing else',
  'field.emitter = x, field.repeat_emitter = x, field.gate_emitter = x and obj.emitters[label] = x replace exactly the reference with that label: no attribute, seed, generator, position or last value of any object changes, and labels and order of the children stay. The next call draws from x. From then on calling, resetting and seeding the owner leaves the replaced emitter alone unless it is still below the owner. x keeps its own seed until the owner is reset or seeded. The graph of emitters stays free of cycles iff the owner is not below x, so C62 continues to hold.',
  'all object graphs, all owners, labels and emitters', 'all assignments', 'profile.py:Field.emitter', 'profile.py:Field.repeat_emitter', 'profile.py:Field.gate_emitter', 'mixins.py:ChildrenMixin.emitters')
p('Retargeting CopyFields and BasedOnFields changes only what they read',
  'set_source_fields replaces the source fields: nothing is called, reset or seeded, the separator or action stays, no other object changes. From then on CopyFields copies the last values of the new fields and BasedOnFields applies the same action to them. Assigning CopyFields.separator replaces the separator and nothing else.',
  'all object graphs, all source fields, all states', 'all assignments', 'emitters/fromfields.py:CopyFields.set_source_fields', 'emitters/fromfields.py:BasedOnFields.set_source_fields', 'emitters/fromfields.py:SourceFieldGroup')
p('name and hide of a field do not influence what is generated',
  'After assigning field.hide, every emitter and field emits the same as without the assignment; a document holds the same values of those fields that are not hidden now; making documents and assigning hide commute. The same holds for field.name (the keys of a schema do not change), unless the field is one of several sources of a BasedOnFields emitter, whose action receives it under the new name.',
  'all object graphs, all schemas, all histories', 'all assignments', 'profile.py:Field', 'profile.py:Schema.__call__', 'emitters/fromfields.py:BasedOnFields.emit')
p('dtrange interprets its arguments as documented',
  'The units weeks, days, hours, minutes, seconds, milliseconds and microseconds are multiples of each other (7 days, 24 hours, 60, 60, 1000, 1000): a range in one unit is the range in the smaller unit with the step multiplied, exceptions included. Without a unit, dates are stepped in days, times and datetimes in seconds. A string stands for a date if date.fromisoformat accepts it, otherwise for a time, otherwise for a datetime, and gives the same range as that object. A string that is none of these, another object, start and stop of different types and an unknown unit raise ValueError. A step of zero raises ZeroDivisionError, a step that is no timedelta OverflowError.',
  'all starts, stops, steps, units and strings', 'all arguments', 'dtrange.py:dtrange', 'dtrange.py:_parse_user_date')
p('stop of a dtrange is the first value after it',
  'The stop attribute of a range made by dtrange is the first value of its arithmetic progression that is not in the range: one step after the last element, not before the stop argument, less than a step behind it. If stop - start is a multiple of the step, it is the stop argument. Making a range from start, stop and step attributes gives the same range.',
  'all ranges made by dtrange', 'all ranges', 'dtrange.py:DateOrTimeRange.stop', 'dtrange.py:dtrange')
p('reset_source and seed_source reach the source fields, reset and seed do not',
  'reset_source (CopyFields, BasedOnFields) and seed_source (BasedOnFields) reset or seed every source field once and in order; only source fields and emitters below them change, and no configuration. After seed_source(s) everything below the source fields has the seed s and a freshly seeded generator; after reset_source everything below them starts over, with the seed of a source field above it, and the fields have no last value. Calling, resetting or seeding the emitter itself changes no other object.',
  'all object graphs, all source fields, all states', 'all graphs', 'emitters/fromfields.py:CopyFields.reset_source', 'emitters/fromfields.py:BasedOnFields.reset_source', 'emitters/fromfields.py:BasedOnFields.seed_source', 'group.py:GroupMixin.do_method')
p('Weighted draws without replacement follow the weights exactly',
  'If the draws of the generator are independent and uniform on [0, 1) and weights are positive, weighted_shuffle and a Choice that does not repeat items draw like successive draws, each in proportion to the weights of what is left: the probability of a sequence of different items is the product of weight / (total weight - weights drawn before). This holds for every requested number, for both algorithms (repeated sampling for small numbers, sorting by log(u)/w for large ones), after replace = False, after weights are assigned and for em(n) with replace_only_after_call. The call returns with probability 1.',
  'all positive weights, all numbers, all sequences of items', 'all weights and sequences', 'mathtools.py:weighted_shuffle', 'emitters/choice.py:Choice._global_shuffle', 'emitters/choice.py:Choice._choice_without_replacement')
p('Without weights all items are equally likely',
  'If the generator is fair, a Choice without weights has no bias: with replacement the n values of em(n) are independent and every item has probability 1/len(items); after replace = False every order of the items has probability 1/len(items)!, and every sequence of k different items comes first with the same probability; with replace_only_after_call every sequence of n different items is equally likely for em(n).',
  'all items, all numbers, all sequences of items', 'all items and sequences', 'emitters/choice.py:Choice._choice_with_replacement', 'emitters/choice.py:Choice._choice_without_replacement', 'emitters/choice.py:Choice._global_shuffle')
p('An ObjectGroup is operated on like a list',
  'Indexing, slicing, +, *, +=, *=, append, insert, reverse and copying an ObjectGroup give the members that the same operation on a list gives, and do_method on the result visits these members in order.',
  'all groups of objects, all indexes, slices and numbers', 'all groups and operations', 'group.py:ObjectGroup.__init__', 'group.py:ObjectGroup', 'group.py:GroupMixin.do_method')
p('A range never changes',
  'start, length, step and stop of a DateOrTimeRange are read-only: every assignment raises AttributeError and changes nothing. After any history of reads and attempted assignments the range has the attributes it was built with, and stop and repr give what they give on the new range (they are cached).',
  'all constructor arguments, all histories', 'all histories', 'dtrange.py:DateOrTimeRange', 'dtrange.py:DateOrTimeRange.stop', 'dtrange.py:DateOrTimeRange.__repr__')
p('DateOrTimeRange accepts the documented arguments and no others',
  'The constructor accepts a date, time or datetime as start, an int or something castable to an int as length and a timedelta as step, of whole days for dates and of less than a day for times. The object then has these attributes. Anything else raises ValueError, or the exception of int(length).',
  'all arguments', 'all arguments', 'dtrange.py:DateOrTimeRange.__init__', 'dtrange.py:DateOrTimeRange.length')
p('A wrapper function uses the generator of the emitter it is set on',
  'set_wrapper_function(f) binds the function to the emitter, even if f is the wrapper of other emitters: calls of the wrapper depend on the state of the generator of this emitter only and change nothing else. Assigning the wrapper object of another emitter to the attribute wrapper keeps it bound to the other emitter.',
  'all functions, all earlier bindings, all states', 'all functions and bindings', 'emitters/wrappers.py:BoundWrapper.__init__', 'emitters/wrappers.py:WrapOne.set_wrapper_function', 'emitters/wrappers.py:WrapMany.set_wrapper_function')
p('Only None and integers are accepted as a number of values',
  'Calling an emitter with a number that is neither None nor an integer never returns: it raises. The exception is that of the emitter which is asked first (Word asks its length emitter, Text its numwords emitter, wrappers their first source): TypeError for Static, CopyFields and Choice (unless it has weights with a total that is not positive), ValueError for Iterative and Sequential. Nothing changes anywhere: no generator, position, cache or count. BasedOnFields alone applies its action before it raises TypeError.',
  'all object graphs, all states, all arguments that are no numbers', 'all graphs and arguments', 'emitter.py:Emitter.__call__', 'emitters/fixed.py:Static.emit_many', 'emitters/fixed.py:Iterative.emit_many', 'emitters/text.py:Word.emit_many', 'emitters/wrappers.py:WrapMany.emit_many', 'emitters/fromfields.py:BasedOnFields.emit_many')
p('Rounding cannot push a random pick out of range or onto an item of weight zero',
  'random() is a multiple of 2^-53 below 1, and products, sums and int-to-float conversions are rounded to the nearest double. In spite of this a pick of random.choices is always the position of an item: with weights, and without weights for lists of any length. If the float total of the weights is a normal number above the smallest one, the weight of the item picked is positive. The comparison number <= 0.42 * len(items) which selects the algorithm of weighted_shuffle has the outcome it has in exact arithmetic for lists of up to 2^47 items.',
  'all weights that are doubles, all draws, all list lengths', 'all weights and draws', 'emitters/choice.py:Choice._choice_with_replacement', 'mathtools.py:weighted_shuffle')
p('poisson_choice and gaussian_choice can be built without replacement',
  'poisson_choice(items, replace=False) and gaussian_choice(items, replace=False) return an emitter for every list of items with the default weight_floor, as they do with replacement.',
  'all lists of items, all mu and sigma, all seeds', 'all lists and seeds', 'emitters/choice.py:poisson_choice', 'emitters/choice.py:gaussian_choice', 'mathtools.py:weighted_shuffle')
p('Rounding distorts probabilities by less than anyone can notice',
  'random() takes each of the 2^53 values j/2^53 with the same probability. With all roundings of CPython, an item of a list of n items (n up to 2^53) is picked for a fraction of these values that differs from 1/n by at most 2^-52; with weights, none negative and with a normal total, for a fraction that differs from weights[i]/sum(weights) by at most (n+2)/2^53; chance(p) with 0 <= p <= 1 is True for exactly ceil(p * 2^53) of the 2^53 values.',
  'all weights that are doubles, all list lengths, all positions', 'all weights and positions', 'emitters/choice.py:Choice._choice_with_replacement', 'emitters/choice.py:chance')
p('Ranges work alike for values with a time zone',
  'With values that have a tzinfo (a fixed offset from UTC), dtrange gives the moments start + i*step strictly before stop, at the offset of start, whatever the offset of stop. in and index find a value by the moment it denotes, exactly as in the list of the elements, and never raise anything but ValueError (index). Ranges are equal exactly when their elements are pairwise equal, even at different offsets, and equal ranges have equal hashes. On naive values everything is as in C01-C08. Times keep their tzinfo.',
  'all values with and without a fixed offset, all steps, all lengths', 'all values and offsets', 'dtrange.py:_index_to_value', 'dtrange.py:_value_to_index', 'dtrange.py:dtrange', 'dtrange.py:DateOrTimeRange.__contains__')
p('Asking for a negative number of values gives nothing and changes nothing',
  'Calling an emitter with a negative number either raises ValueError (Iterative, Sequential and whatever asks one of them first) or returns an empty list. No state changes anywhere: later values are the ones that would have come without the call.',
  'all object graphs, all states, all negative numbers', 'all graphs, states and numbers', 'emitter.py:Emitter.__call__', 'emitters/choice.py:Choice._choice_without_replacement', 'emitters/text.py:Text.emit_many', 'emitters/fixed.py:Iterative.emit_many', 'emitters/wrappers.py:WrapMany.emit_many')
p('Values do not depend on how many are asked for at a time',
  'Calling an emitter for n values returns the values that n calls for one value return, and leaves every object in the state these calls leave it in. The same holds for any way of splitting n into batches.',
  'all object graphs, all reachable states, all numbers and ways of splitting them', 'all graphs, states and batches', 'emitter.py:Emitter.__call__', 'emitters/choice.py:Choice.emit_many', 'emitters/fixed.py:Iterative.emit_many', 'emitters/text.py:Word.emit_many', 'emitters/text.py:Text.emit_many', 'emitters/wrappers.py:WrapOne.emit_many', 'emitters/wrappers.py:WrapMany.emit_many', 'emitters/fromfields.py:BasedOnFields.emit_many')
p('What a Choice picks does not depend on what its items are',
  'Two Choice emitters with equally many items and equal settings, used by the same program (calls, assignments, resets, seeds, in any order, with or without exceptions), emit the items at the same positions at every step and fail at the same steps. Equal items are not merged. If all items are hashable, the exceptions are the same too.',
  'all item types and lists of items, all settings, all sequences of operations, all generators', 'all items, settings and histories', 'emitters/choice.py:Choice', 'emitters/choice.py:Choice._choice_without_replacement', 'emitters/choice.py:Choice._choice_with_replacement', 'mathtools.py:weighted_shuffle')
p('An Iterative emits what its iterators give, whatever they do',
  'The factory of an Iterative may return another iterator every time or the same one, and factory and iterators may raise exceptions. In calls that succeed, every value that an iterator gives is emitted once, in the order given, and no value is asked for before it is needed. The factory is called only after construction, after a reset and when the last iterator has ended; a reset leaves the rest of the current iterator alone. The constructor takes one value of an iterator of its own. With a factory for an equal iterator each time the items repeat in cycles. An exception reaches the caller, and afterwards the emitter goes on or raises it again.',
  'all iterator factories over any state, all sequences of operations', 'all factories and histories', 'emitters/fixed.py:Iterative.make_infinite_iter', 'emitters/fixed.py:Iterative.check_iter_factory', 'emitters/fixed.py:Iterative.emit', 'emitters/fixed.py:Iterative.emit_many', 'emitters/fixed.py:Iterative.reset')
p('Uniqueness and numbering hold across a whole set of documents',
  'If a Choice without replacement is the emitter of one field and is used nowhere else in the schema, then across any number of documents, with any use of other objects in between and whether or not documents fail, the values of the field are values of one permutation of the items, in order: no item comes twice, and if all documents succeed none is skipped. The counter of remaining values goes down by exactly the values used. The same field with an Iterative or Sequential (without reset_after_call) has consecutive values of its cycle, so that numbers 1, 2, 3, ... have no gaps or repeats as long as no document fails. This holds with any gate and repeat and for hidden fields.',
  'all schemas, all sequences of documents and other operations, all gates and repeats', 'all schemas and histories', 'profile.py:Schema.__call__', 'profile.py:Field.__call__', 'emitters/choice.py:Choice._choice_without_replacement', 'emitters/fixed.py:Iterative.emit_many')
p('Changing a document affects no other document',
  'Lists in documents are objects that the user may change. Making documents changes no list that exists: neither one in an earlier document nor one that the user gave to an emitter. An emitter called with a number returns a new list. Every list in a document, at any depth, belongs to that document and to one field of it. So whatever a user does to lists in documents, the documents made later look as if they had done nothing.',
  'all schemas of emitters of the library, all callbacks that change none of their arguments, all changes by the user, all histories', 'all schemas, user changes and histories', 'profile.py:Field.__call__', 'profile.py:Schema.__call__', 'emitters/fromfields.py:CopyFields.emit', 'emitters/fromfields.py:CopyFields.emit_many', 'emitters/fromfields.py:BasedOnFields.emit_many', 'emitters/wrappers.py:WrapMany.emit_many')
p('Emitters configured alike and seeded alike emit alike',
  'What an emitter or a field gives depends on its settings and its seed, not on which object it is. Two of them made of different objects with equal settings, in one program or in two, that are given the same seed (with seed, or with reset and equal rng_seed) return the same values and raise the same exceptions in the same calls. So after seed_fields, which gives all fields the same seed, two fields with equal settings have the same value in every document, as long as the schema gives documents.',
  'all emitters and fields without source fields, all histories before seeding, all sequences of calls, all generators', 'all pairs of like emitters, all calls', 'mixins.py:RandomWithChildrenMixin.seed', 'mixins.py:RandomWithChildrenMixin.reset', 'emitters/choice.py:Choice.seed', 'profile.py:Schema.seed_fields')
p('Gates and values are drawn independently',
  'Whether a field with gate chance(p) is filled in a document is independent of which value it gets and of whether another field with gate chance(q) is filled: both fields are filled with probability p times q, and the field has an item of its choice with probability p times the share of the weight of that item, in every document.',
  'all schemas with such fields, all probabilities and weights, all numbers of documents, all seeds and generators', 'all schemas with gated fields, all seeds', 'profile.py:Field.__call__', 'profile.py:Schema.seed_fields', 'mixins.py:RandomWithChildrenMixin.seed', 'emitters/choice.py:chance')
p('Words have the probabilities of their length and letters',
  'A Word with weighted lengths and a weighted alphabet, both with replacement, emits any given word with the probability of its length times the product of the probabilities of its letters. So every word that num_unique_values counts can come next, unless one of its weights is 0.',
  'all lengths, alphabets and weights, all words, all seeds and generators', 'all words, weights and seeds', 'emitters/text.py:Word.emit', 'emitters/text.py:Word.seed', 'emitters/text.py:Word.reset', 'emitters/choice.py:Choice.emit_many')
p('Ranges of local times agree with the moments they stand for',
  'For datetimes in a time zone that has daylight saving time: a range starts with its start and steps along the local clock; in and index find exactly the values that equal an element, also when they are given in another zone; ranges are equal exactly if their elements are, and equal ranges have equal hashes; dtrange ends the range at the moment of stop, also when stop is in another zone.',
  'all zones with any changes of the clock, all starts, steps and lengths, all values and folds', 'all zones, ranges and values', 'dtrange.py:_index_to_value', 'dtrange.py:_value_to_index', 'dtrange.py:DateOrTimeRange.__contains__', 'dtrange.py:DateOrTimeRange.__eq__', 'dtrange.py:DateOrTimeRange.__hash__', 'dtrange.py:dtrange')
p('Sharing of lists is invisible until a list is changed',
  'Emitters hand out lists that other emitters, fields and documents hold as well. As long as nobody changes a list, none of this can be seen: every emitter returns, and every document contains, what it would if each list were a fresh value, with the same exceptions in the same calls; and documents made before look the same for ever.',
  'all nestings of wrappers, copies and based-on emitters over any other emitters, all callbacks, all numbers of values, all fields, all numbers of documents', 'all schemas, all numbers of documents', 'emitters/fromfields.py:CopyFields.emit', 'emitters/fromfields.py:BasedOnFields.emit_many', 'emitters/wrappers.py:WrapOne.emit_many', 'emitters/wrappers.py:WrapMany.emit_many', 'profile.py:Field.__call__', 'profile.py:Schema.__call__')
p('A seed that is refused has no effect',
  'Seeding an emitter, a field or a schema with a value that random.seed does not accept (a list, say) raises TypeError and changes nothing: the values that follow are the same as without the call, and so is everything after a reset. A valid seed given later works as if the other had never been given.',
  'all objects nested in any way, with shared parts, all histories, all that Choice does when it is seeded', 'all nested objects, all refused seeds', 'mixins.py:RandomMixin.seed', 'mixins.py:RandomMixin.reset', 'mixins.py:RandomWithChildrenMixin.seed', 'mixins.py:RandomWithChildrenMixin.reset', 'emitters/choice.py:Choice.seed', 'emitters/text.py:Text.seed', 'profile.py:Schema.seed_fields')
p('A Choice follows its list',
  'The list given to a Choice is its items, also when it is changed later. With replacement the next call draws from the list as it is then. Without replacement the values still to come stay as they were settled, and reset or seed starts again with the list as it is then: the emitter does what one made with that list and the same settings does. If the number of weights no longer fits, ValueError is raised instead of wrong values.',
  'all histories, all changes of the list, all weights, settings and seeds, all sequences of calls afterwards', 'all histories, changes of the list and calls', 'mixins.py:ItemsMixin.items', 'emitters/choice.py:Choice.reset', 'emitters/choice.py:Choice.seed', 'emitters/choice.py:Choice._choice_with_replacement', 'emitters/choice.py:Choice._choice_without_replacement')
p('Module names: dir lists what can be got, only deprecated names warn',
  'For fauxdoc.emitters, fauxdoc.emitters.wrappers and fauxdoc.typing: dir lists a name exactly if the module gives something for it, in alphabetical order. A current name never warns. A deprecated name gives the old object and warns at every use, once for an attribute or for a from-import out of a module, twice for a from-import out of a package. Star imports give every name in __all__. Any other name raises AttributeError without a warning.',
  'all modules with such functions, all global variables and tables of deprecated names, all lists of names imported', 'all modules, tables and imports', 'emitters/__init__.py:__getattr__', 'emitters/__init__.py:__dir__', 'emitters/wrappers.py:__getattr__', 'emitters/wrappers.py:__dir__', 'typing.py:__getattr__', 'typing.py:__dir__', 'warn.py:get_deprecated_attr')
p('A Sequential follows its list',
  'The list given to a Sequential is its items, also when it is changed later. Each value is the item that the list holds, at the time, at the place reached; when the list has no such place, the next round starts. So values are always in the list, appended items are emitted in the round that is under way, as many values as the list has items are its items once each, reset starts at the beginning of the list as it is, and num_unique_values counts the present items. Calls return, whatever is done to the list. The same holds for the list of a factory assigned later.',
  'all histories of calls, resets, assignments and changes of any lists, all numbers of values', 'all histories and changes of lists', 'emitters/fixed.py:Sequential.__init__', 'emitters/fixed.py:Sequential.emit', 'emitters/fixed.py:Sequential.emit_many', 'emitters/fixed.py:Sequential.reset', 'emitters/fixed.py:Sequential.iterator_factory', 'emitters/fixed.py:Iterative.make_infinite_iter', 'mixins.py:ItemsMixin.num_unique_values')
p('Assigning a saved iterator_factory restores a Sequential',
  'Assigning em.iterator_factory to itself does no more than reset. Keeping em.iterator_factory, assigning another factory, and then assigning the one kept, brings the first sequence back.',
  'all states, all factories over lists, all histories afterwards', 'all states, factories and histories afterwards', 'emitters/fixed.py:Sequential.iterator_factory', 'emitters/fixed.py:Sequential.__init__')
p('The text of a range says which range it is',
  'Every range has a text (repr, str), and two ranges with the same text have the same start, step and values. The text names start, stop and step in the format of the datetime module, dates as in the Gregorian calendar, and it never changes.',
  'all ranges of dates, times and datetimes of any length and step', 'all ranges', 'dtrange.py:DateOrTimeRange.__repr__', 'dtrange.py:DateOrTimeRange.stop')
p('A text given to dtrange stands for the value it writes',
  'A string argument of dtrange is taken for a date, time or datetime exactly if it is one of the documented ISO forms of that value, no string has two meanings, and any other string raises ValueError. str and isoformat of a value are such forms. Passing the texts of start and stop out of repr(r), with the step, to dtrange gives r again.',
  'all strings, all valid dates, times and datetimes, all ranges and steps', 'all strings, values and ranges', 'dtrange.py:_parse_user_date', 'dtrange.py:dtrange', 'dtrange.py:DateOrTimeRange.__repr__')
p('A fractional step of dtrange is a whole number of microseconds, as near as can be',
  'dtrange with a float as step is dtrange with a number of microseconds that differs from the float by at most half a microsecond (apart from 2^-13 microseconds for rounding to doubles). A whole float means the same as the int. A decimal number of seconds, hours or weeks that stands for m microseconds gives exactly m microseconds, up to 2^51. Larger steps never become smaller. Infinity, NaN and steps of less than half a microsecond are refused.',
  'all floats, units, starts and stops; any rounding that IEEE 754 allows', 'all floats, units, starts and stops', 'dtrange.py:dtrange')
p('Fields derived from a hidden field show the same items, and the documents go through all items in order',
  'In a schema with a hidden field that makes a varying number of items by an Iterative, and any number of fields that use it by BasedOnFields (the last example of the README), each document shows in every derived field what its action returns for the same list of items, the number of items is one of the given ones, the hidden field is not shown, and the documents go through the sequence of items without gaps or repetitions, beginning with the first item. After reset_fields they begin with the first item again.',
  'all sequences of items, numbers of items, weights, actions, generators and numbers of documents', 'all schemas of this kind and all numbers of documents', 'emitters/fromfields.py:BasedOnFields', 'profile.py:Field.__call__', 'profile.py:Schema.__call__', 'profile.py:Schema.reset_fields')
p('An ObjectMap is an ordered dict',
  'Whatever sequence of dict operations (lookup, assignment, del, pop, popitem, setdefault, update, move_to_end, clear) is applied to an ObjectMap, results, errors, entries and order of keys are those of an ordered dict; so are the results of |, == and the order in which do_method visits members. Copying one (copy, copy.copy, copy.deepcopy, pickle, fromkeys) gives an equal map.',
  'all maps and all finite histories of operations', 'all maps and histories', 'group.py:ObjectMap.__init__', 'group.py:ObjectMap.objects_iterable', 'group.py:GroupMixin.do_method')
p('do_method reaches every member once, even if the members change the group',
  'do_method calls the method on each member that the group has at the time of the call exactly once, in order, skips those that lack it, and comes to an end, even if the methods themselves add members to or remove members from the group.',
  'all groups and maps, and all methods with any effect on the group', 'all groups, maps and methods', 'group.py:GroupMixin.do_method', 'group.py:ObjectGroup.objects_iterable', 'group.py:ObjectMap.objects_iterable')
p('The mixins do their part in every class built from them',
  'In every class derived from Emitter and the mixins, directly or through further classes, as long as methods that are overridden call super: construction takes rng_seed, items and children from the keyword arguments and refuses others; reset makes a new generator from rng_seed and resets every child (with RandomWithChildrenMixin after giving it the seed); seed seeds the generator and (with RandomWithChildrenMixin) the children; and each class in between is visited once, in the method resolution order. A class is refused (TypeError) exactly if no order keeps that of its bases and of their ancestors.',
  'all hierarchies of classes that Python accepts, all overriding methods, all instances', 'all class hierarchies and instances', 'mixins.py:RandomMixin', 'mixins.py:ItemsMixin', 'mixins.py:ChildrenMixin', 'mixins.py:RandomWithChildrenMixin', 'emitter.py:Emitter.reset')
p('Fields based on each other, even in circles, are a system of recurrences',
  'In a schema whose fields are all computed by BasedOnFields from fields of the same schema, in any order, also from themselves, a document shows the solution of the equations in which an action sees earlier fields as they are in the same document, and its own field and later fields as they were in the document before (None at first and after reset_fields). Nothing else, such as generators or seeds, has an influence, and nothing but the last values changes. A document is made exactly if the actions accept those values. For example, a field based on itself counts documents, and three fields give the Fibonacci numbers.',
  'all such schemas, all actions, all numbers of documents', 'all schemas of this kind and all numbers of documents', 'emitters/fromfields.py:BasedOnFields.emit', 'profile.py:Field.__call__', 'profile.py:Field.previous', 'profile.py:Schema.__call__', 'profile.py:Schema.reset_fields')
p('An interrupt at any moment can be undone by resetting',
  'If the user interrupts (KeyboardInterrupt) a call, a document, reset or seed at any moment, the interrupt reaches the caller: no except clause of the library swallows it. No configuration has changed (reset and seed may have passed on seeds), and nothing outside the object called and the emitters below it. In an interrupted document the fields before the one under way have their new last values, those after it the old ones, and it has its old one or its complete new one. If the fields have seeds, then after any number of calls, documents and resets, interrupted or not, reset_fields() gives the same documents as if nothing had happened; after interrupted seeding, seed_fields(s) and reset_fields() do. Without resetting, an Iterative or Sequential that was interrupted while its iterator was running stays finished: calling it raises StopIteration, asking for several values gives none, and seeding does not help.',
  'all schemas, all moments of interruption, all histories of interrupted and complete uses', 'all schemas, moments and histories', 'emitter.py:Emitter.__call__', 'emitters/fixed.py:Iterative', 'emitters/fixed.py:Sequential', 'mixins.py:RandomWithChildrenMixin', 'group.py:GroupMixin.do_method', 'profile.py:Field.__call__', 'profile.py:Schema.__call__', 'profile.py:Schema.reset_fields', 'profile.py:Schema.seed_fields')
p('Seeding and resetting obey simple laws',
  'With an integer as seed: seeding again has the same effect as the last seeding alone, whatever came before; a second reset changes nothing; whatever was seeded or reset below an object makes no difference once the object itself is seeded or reset; assigning rng_seed and resetting does what seeding and resetting does; and seeding then resetting leaves everything as resetting then seeding does. The same holds for seed_fields and reset_fields of a schema.',
  'all objects, schemas, seeds and states', 'all objects, schemas, seeds and states', 'mixins.py:RandomMixin.seed', 'mixins.py:RandomMixin.reset', 'mixins.py:RandomWithChildrenMixin', 'emitters/choice.py:Choice.seed', 'emitters/choice.py:Choice.reset', 'emitters/text.py:Word.reset', 'emitters/text.py:Text.seed', 'profile.py:Schema.reset_fields', 'profile.py:Schema.seed_fields')
p('Programs that share no objects do not influence each other',
  'Take objects with seeds that depend on no others (as child emitters or source fields), and that no other objects have as emitters. Whatever a program does with them (calls, documents, reset, seed, with their fields), its values, documents and exceptions and the state it leaves behind do not depend on what else is done in between: building other objects, calling, resetting and seeding them (also with None), assigning to any of their attributes, even building and calling emitters that copy the values of the first objects. So two programs with disjoint objects can be interleaved in any order, and each gets exactly what it would get alone.',
  'all sets of objects closed in this way, all sequences of uses, all other steps and interleavings', 'all programs and interleavings', 'emitter.py:Emitter.__call__', 'mixins.py:RandomMixin', 'mixins.py:RandomWithChildrenMixin', 'emitters/fromfields.py:CopyFields', 'emitters/fromfields.py:BasedOnFields', 'profile.py:Field', 'profile.py:Schema.__call__', 'profile.py:Schema.reset_fields', 'profile.py:Schema.seed_fields')
p('The order of fields that have nothing to do with each other does not matter',
  'Two fields are apart if neither looks at anything that a call of the other can change (two fields that copy the same third field may be apart). If the fields of a schema are put in another order in which fields that are not apart keep their order, the schema makes the same documents up to the order of the entries, leaves every object in the same state, and raises exactly if the other one does. So fields of which any two are apart can be listed in any order.',
  'all schemas of fields with seeds, all orders of their fields, all numbers of documents', 'all schemas, orders and numbers of documents', 'profile.py:Schema.__call__', 'profile.py:Schema.__init__', 'profile.py:Field.__call__', 'emitters/fromfields.py:CopyFields', 'emitters/fromfields.py:BasedOnFields', 'emitter.py:Emitter.__call__')
p('Unique means unequal in the sense of Python',
  'num_unique_values is the number of values that can (still) be emitted and are different in the sense of ==, so that True, 1 and 1.0 count as one, a nan counts once for each object, and strings, tuples and None as usual; a TypeError is raised exactly if one of them has no hash. It does not depend on the order of the items or the shuffle. When emits_unique_values is true, no two of the values emitted from then on until the next shuffle are equal. All that is needed is that == is an equivalence and equal values have equal hashes, which is the case for values of built-in types. For values without equality across types the counts are those of C17.',
  'all item lists, all types with lawful equality and hashes, all histories of a Choice', 'all items, equalities and histories', 'mixins.py:ItemsMixin.num_unique_values', 'emitters/choice.py:Choice.num_unique_values', 'emitters/choice.py:Choice.emits_unique_values', 'emitters/choice.py:Choice.num_unique_items')
p('Fields that share an emitter share out its values',
  'If several fields have the same emitter (and neither their repeats nor their gates use it), the values they take from it across any number of documents are one run of that emitter, dealt out document by document and in a document in the order of the fields. For a Choice without replacement they are consecutive values of one permutation of its items, so no item comes twice, neither in one field nor in two, and the counter goes down by as many; for Iterative and Sequential they go round: with m fields and one value each, field i of document j has item j * m + i. This holds whichever documents fail and whatever is called, reset or seeded in between that is not above the emitter.',
  'all schemas, all fields over the emitter, all numbers of documents, all histories of other objects', 'all schemas, histories and numbers of documents', 'profile.py:Field.__call__', 'profile.py:Schema.__call__', 'emitters/choice.py:Choice.emit_many', 'emitters/fixed.py:Iterative.emit_many', 'emitters/fixed.py:Sequential')
p('A wrapper describes its function and calls it with the generator of its emitter',
  'At any time signature and wants_rng of a BoundWrapper are those of its function, whatever functions were assigned before; a call runs exactly this function, with the rng of the emitter the wrapper is bound to if the function declares rng and without if not. (False of the code in three cases. Assigning something that cannot be called raises TypeError but is stored next to the old signature and wants_rng. A BoundWrapper assigned to the attribute function keeps drawing from the emitter it is bound to. A callable given to BoundWrapper that happens to have an attribute named function is never called, the attribute is.)',
  'all functions, all histories of constructions, assignments and calls, all nestings of wrappers', 'all functions and histories', 'emitters/wrappers.py:BoundWrapper.__init__', 'emitters/wrappers.py:BoundWrapper.function', 'emitters/wrappers.py:BoundWrapper.signature', 'emitters/wrappers.py:BoundWrapper.wants_rng', 'emitters/wrappers.py:BoundWrapper.__call__')
p('The seed given to an emitter decides what it emits',
  'An emitter that was given a seed gives the same values in every run of the program, also when it is used in a Field, Word, Text or wrapper. (False of the code: these reset their emitters with their own rng_seed, and if that is None the seed of the emitter is replaced by None and its generator by one from the operating system; this happens to an emitter shared with a field that has a seed, too. What holds is the following. Seeds given to the emitters of a new Field, Word, Text, WrapOne or WrapMany, and all that they have emitted before, make no difference to anything that happens afterwards; the same goes for reset. If the object itself has a seed, the operating system makes no difference either.)',
  'all structures of objects, all seeds of the object and of the emitters below it, all states of these emitters', 'all objects, seeds and states', 'mixins.py:RandomWithChildrenMixin.reset', 'mixins.py:RandomMixin.reset', 'profile.py:Field.__init__', 'emitters/text.py:Word.__init__', 'emitters/text.py:Text.__init__', 'emitters/wrappers.py:WrapOne.__init__', 'emitters/wrappers.py:WrapMany.__init__')
p('Generating goes onward and never starts over',
  'Calling an object or generating a document takes the random generators below it onward, by drawing from them, and never puts one of them back to where it was before. So generating more does not end up in a loop: only reset and seed start over. (False of the code: a Text whose word emitter is a Choice with replace_only_after_call resets this Choice whenever a call needs more words than the list has, and if the Choice has a seed, as it has in a Text with a seed, its generator is put back to the start. With a fixed number of words to a text, all calls for the same number of texts from the second on then return the same texts, for ever, and leave everything as it was. It holds for everything that has no such Text in it, whether the call succeeds or not.)',
  'all structures of objects, all generators, all histories, all calls with all arguments including those that fail', 'all objects, states and calls', 'emitters/text.py:Text._get_words_iterator', 'emitters/text.py:Text.emit_many', 'emitter.py:Emitter.__call__', 'emitters/choice.py:Choice.reset', 'mixins.py:RandomMixin.reset')
p('Texts have the probabilities of their number of words, words and separators',
  'A Text that chooses the number of its words, its words and its separators by weight, with replacement, gives each text with the probability of its number of words times the probabilities of its words and separators, in any order and combination. (False of the code for a Text with a seed: seed and reset give the three emitters the same seed, so in the first text the draw that decides a word also decides the separator behind it, for every word, and the draw that decides the number of words decides the first word. With two words and two separators of equal weight each word of the first text is always followed by the same separator, whatever the seed. It holds if the generators of the three start in independent states.)',
  'all weights, words and separators that can be told apart in a text, all seeds and generators, all states with independent uniform draws', 'all weights, words, separators and generators', 'emitters/text.py:Text.emit_many', 'emitters/text.py:Text.seed', 'emitters/choice.py:Choice.emit_many', 'mixins.py:RandomWithChildrenMixin.seed', 'mixins.py:RandomWithChildrenMixin.reset')
p('The error for asking too much says how much can be had',
  'If a Choice without replacement, or with replace_only_after_call, is asked for more values than it can give, the message of the ValueError names the number asked for and a smaller number, that of the possible selections; both can be read from the message. So many values can be had at once, and no more. (The last is false of the code if equal items are left: the message counts different values, so it says 2 for a, a and b, all three of which can be had.)',
  'all items, weights and generators, all histories of a Choice, all numbers asked for', 'all items, histories and numbers', 'emitter.py:Emitter.raise_uniqueness_violation', 'emitters/choice.py:Choice._choice_without_replacement', 'emitters/choice.py:Choice.num_unique_values', 'emitters/choice.py:Choice.num_unique_items')
p('Fields are filled independently of each other',
  'If two fields of a schema have their values from two Choices with replacement that nothing else uses, then in any number of documents the values of the one are independent of the values of the other: each pair of items has the product of the shares of their weights as its probability. (False of the code after seed_fields: every field gets the same seed, so the m-th values of the two fields are decided by the same draw for all m; some pairs never come, and with equal weights the two always choose the same position.)',
  'all schemas, items, weights, gates, repeats, seeds, numbers of documents and generators', 'all schemas, seeds and numbers of documents', 'profile.py:Schema.seed_fields', 'profile.py:Schema.__call__', 'profile.py:Field.__call__', 'emitters/choice.py:Choice.emit', 'emitters/choice.py:Choice.emit_many', 'emitter.py:Emitter.__call__')
p('The random parts of a wrapped value are independent',
  'The values that a WrapMany combines are drawn independently of each other if its sources are different Choices with replacement, and the numbers that the callback of a WrapOne draws from the generator it is given are independent of the values of its source, over any calls for one or several values. (False of the code after seed: the wrapper and all its sources get the same seed, so the m-th values of two sources are decided by the same draw and some pairs never come; and the number that the callback draws for a value is the one that has picked the value, so it always lies in the share of that item.)',
  'all items, weights, callbacks, seeds, generators and sequences of calls for one or several values', 'all callbacks, seeds and sequences of calls', 'emitters/wrappers.py:WrapMany.emit', 'emitters/wrappers.py:WrapMany.emit_many', 'emitters/wrappers.py:WrapOne.emit', 'emitters/wrappers.py:WrapOne.emit_many', 'emitters/wrappers.py:BoundWrapper.__call__', 'mixins.py:RandomWithChildrenMixin.seed', 'emitters/choice.py:Choice.emit', 'emitters/choice.py:Choice.emit_many')
p('How many values a field has is independent of which',
  'If the repeat emitter and the emitter of a field are Choices with replacement, the lists that the field gives in any number of calls have as many members as the weights of the repeat emitter say, each with the probabilities of its own weights and independently of the number. (False of the code after seed: both get the same seed, so the first number of values and the first of these values are decided by the same draw; some numbers never come with some items in front.)',
  'all fields with a random repeat, items, weights, seeds, generators and numbers of calls', 'all weights, seeds and numbers of calls', 'profile.py:Field.__call__', 'profile.py:Field.repeat_emitter', 'profile.py:Field.emitter', 'mixins.py:RandomWithChildrenMixin.seed', 'emitters/choice.py:Choice.emit', 'emitters/choice.py:Choice.emit_many')
p('A schema notices that its fields change while it makes a document',
  'Whatever its fields do to this and other schemas while a document is made, a call of a schema calls the fields it had at the start, in order, each as it is found when its turn comes, and returns a document with no other fields and in this order. If a field adds, removes or moves fields of the schema meanwhile, a RuntimeError is raised instead of a document that fits neither the old nor the new fields; if none does, the call fails only if a field fails. (Not true of the last field: what it changes is not noticed, and the document is returned.)',
  'all schemas, all behaviours of fields, including those that set, add, remove, move, rename or hide fields of any schema while called', 'all schemas and behaviours of fields', 'profile.py:Schema.__call__', 'profile.py:Schema.add_fields', 'profile.py:Schema.set_fields', 'group.py:ObjectMap')
p('Schemas do not interfere with each other',
  'A schema whose fields were set has exactly these fields, under the names they had then, in a map that no other schema has. Whatever happens to other schemas, to other maps and to the names of fields, it keeps them, as long as its map is not given to another schema. The maps that hidden_fields and public_fields return are new: changing them changes no schema. Two schemas that were given the same map have the same fields until the map of one of them is replaced. add_fields replaces fields of the same name in place and appends the others.',
  'all numbers of schemas, maps and fields, all sequences of set_fields, add_fields, assignments, views, changes of maps, renamings and hidings', 'all sequences of actions on schemas', 'profile.py:Schema.__init__', 'profile.py:Schema.set_fields', 'profile.py:Schema.add_fields', 'profile.py:Schema.hidden_fields', 'profile.py:Schema.public_fields', 'group.py:ObjectMap.__init__')
p('Calls of a Choice are independent of each other',
  'If the draws of the generator are independent and uniform, then the calls of a Choice with replacement and with weights, with or without replace_only_after_call, are independent of each other: the probability of any results of any sequence of calls, each for one or several values, is the product of the probabilities of the single results, each as if it were the first call. This holds although, with replace_only_after_call, the number of draws that a call takes depends on what it draws.',
  'all items, positive weights, histories of a Choice, sequences of calls and possible results', 'all weights, histories and sequences of calls', 'emitters/choice.py:Choice.emit', 'emitters/choice.py:Choice.emit_many', 'emitters/choice.py:Choice._choice_with_replacement', 'emitters/choice.py:Choice._choice_without_replacement', 'mathtools.py:weighted_shuffle', 'emitter.py:Emitter.__call__')
p('A class can be instantiated exactly if it says how to emit',
  'A class derived from Emitter, in any hierarchy of library and user classes, can be instantiated exactly if emit and emit_many are each defined by a class that comes before Emitter in its method resolution order; otherwise making an instance raises a TypeError whatever the arguments. Of the library, exactly Emitter and the deprecated Wrap cannot be instantiated. A subclass of Wrap that defines both methods can, and its instances have the given sources as emitters, given the seed and reset, and a generator made with the seed.',
  'all class hierarchies, methods of the user, seeds and sources', 'all class hierarchies', 'emitter.py:Emitter', 'emitter.py:Emitter.emit', 'emitter.py:Emitter.emit_many', 'emitters/wrappers.py:_deprecated_Wrap', 'emitters/wrappers.py:_deprecated_Wrap.__init__')
p('In the long run items turn up as often as their weights say',
  'If the draws of the generator are independent and uniform, then, for a Choice with replacement and any endless sequence of calls for one or several values, the share of the values equal to x tends, with probability 1, to the share of the weights of the items equal to x, or without weights to the share of x among the items. So each item with a positive weight turns up as many times as you like. With weights and replace_only_after_call this holds for calls for one value.',
  'all items (also equal ones), weights, histories of a Choice and endless sequences of calls', 'all weights and sequences of calls', 'emitters/choice.py:Choice.emit', 'emitters/choice.py:Choice.emit_many', 'emitters/choice.py:Choice._choice_with_replacement', 'emitters/choice.py:chance', 'emitter.py:Emitter.__call__')
p('In the long run documents show the weights and the chances',
  'If the draws of the generator are independent and uniform: for a field filled by a Choice with weights of its own, with replacement, the share of its values equal to x tends, with probability 1, to the share of the weights of x, as more and more documents are made, whatever its gate, its repeat and the other fields; if it has one value in each document, so does the share of the documents in which it is x. For a field with the gate chance(p) and an emitter that never gives None, the share of the documents in which it is filled tends to p.',
  'all schemas with such a field, weights, probabilities and endless sequences of documents', 'all schemas with such a field and endless sequences of documents', 'profile.py:Schema.__call__', 'profile.py:Field.__call__', 'emitters/choice.py:Choice.emit', 'emitters/choice.py:chance')
p('A text tells its words, so the number of texts is exact',
  'If the words of a Text consist of letters and its separators of other characters, and none is empty, then a text determines its words and separators. So, with different word counts of at least one, exactly num_unique_values texts are possible, and there are emitters of these counts, words and separators with which exactly that many different texts are emitted. Without the condition there can be fewer.',
  'all sets of words and separators that can be told apart, and all word counts', 'all words, separators and word counts', 'emitters/text.py:Text.emit_many', 'emitters/text.py:Text.num_unique_values', 'emitters/text.py:Text._update_num_unique_vals')
p('In the long run a field has as many values as its repeat says',
  'Take a field with a random number of random values: the number comes from one Choice with weights and the values from another, both with replacement. If the draws of each of the two generators are independent and uniform, then, with probability 1, as the field is called again and again, the average number of its values tends to the weighted average of the numbers, the share of x among the values tends to the share of its weight (if there are values at all), and the average number of times x is among the values of a call tends to the product of the two. The two generators may have to do with each other in any way, and may even be in the same state, as after seeding.',
  'all such fields, weights, numbers, values, joint distributions of the two generators and endless sequences of calls', 'all such fields and endless sequences of calls', 'profile.py:Field.__call__', 'emitters/choice.py:Choice.emit', 'emitters/choice.py:Choice.emit_many')
p('The words and texts of a sequence of calls follow their weights',
  'Call a Word with a random length and random letters, or a Text with a random number of words, random words and random separators, again and again. The lengths are picked by the draws of the one generator, the letters (words, separators) of all results, one after the other, by the draws of the others: no draw is used twice and none is left out. If the draws of each generator are independent and uniform, then, with probability 1, the average length of the words tends to the weighted average of the lengths and the share of a letter to the share of its weight; and if one takes the texts apart, the average number of words in a text, the share of a word among the words and that of a separator among the separators tend to what the weights say, even if the generators are in the same state.',
  'all such Words and Texts, weights, joint distributions of the generators and endless sequences of calls', 'all such Words and Texts and endless sequences of calls', 'emitters/text.py:Word.emit', 'emitters/text.py:Text.emit', 'emitters/choice.py:Choice.emit_many')
p('In the long run the values of two fields come together as often as their weights say',
  'Take two fields of a schema, each with one value per document that comes from a Choice of its own with weights and replacement. As more and more documents are made, the share of the documents that have x in the one field and y in the other tends to the product of the shares of the weights of x and of y.',
  'all schemas with two such fields, all weights, values and endless sequences of documents', 'all such schemas and endless sequences of documents', 'profile.py:Schema.__call__', 'profile.py:Schema.seed_fields', 'emitters/choice.py:Choice.emit')
p('An emitter that goes through its items gives every item its turn',
  'In every history of a Sequential, and of an Iterative whose iterators end, each item is among the values since the last reset as often as it is among the items for every complete round, and at most one round more; the same holds for the values of a single call, wherever in the round it begins, so a call for as many values as there are items gives each item once; and it holds for the values of a field across any number of documents. How often an item turns up never differs from its share by more than what it has in one round.',
  'all items, histories of calls, resets and assignments, single calls and sequences of documents', 'all items, histories and sequences of documents', 'emitters/fixed.py:Iterative.emit_many', 'emitters/fixed.py:Sequential', 'profile.py:Schema.__call__')
p('Gates open independently of other gates and of other values in the long run',
  'As more and more documents are made, the share of those in which two fields with the gates chance(p) and chance(q) are both filled, only one of them, or neither tends, with probability 1, to the product of the shares of the two; and so does the share of those in which a field with a gate is filled and another field has a given value drawn from a Choice.',
  'all schemas with such fields, all probabilities, weights and combinations, for generators with independent uniform draws', 'all schemas with two such fields', 'profile.py:Field.__call__', 'profile.py:Schema.seed_fields', 'profile.py:Schema.__call__')
p('Texts one after the other are independent of each other',
  'Whatever number of texts a Text with random numbers of words, random words and random separators is asked for, one after the other, the probability of a given sequence of texts is the product of the probabilities of their numbers of words, of all their words and of all their separators; in particular no choice made for one text limits what the next can be.',
  'all such Text emitters with legible words and separators, all weights and all finite sequences of texts', 'all sequences of texts', 'emitters/text.py:Text.emit', 'emitters/text.py:Text.seed', 'mixins.py:RandomWithChildrenMixin.seed')
p('Words one after the other are independent of each other',
  'Whatever number of words a Word with random lengths and random letters is asked for, one after the other, the probability of a given sequence of words is the product of the probabilities of their lengths and of all their letters; in particular the letters of a word do not tell the length of a later one.',
  'all such Word emitters, all weights and all finite sequences of words', 'all sequences of words', 'emitters/text.py:Word.emit', 'emitters/text.py:Word.seed', 'mixins.py:RandomWithChildrenMixin.seed')
p('What can happen happens sooner or later, after a geometric waiting time',
  'If a field takes its values from a Choice of its own, the probability that document number k is the first with the value x is (1 - q)^k q, where q is the share of the weights of x; and if a field has the gate chance(p), the probability that document number k is the first in which it is filled is (1 - p)^k p. With probability 1 every value with a weight turns up in some document and every gate with a positive chance opens.',
  'all schemas with such a field, whatever the other fields, all weights, chances and numbers of documents, for generators with independent uniform draws', 'all schemas, weights, chances and numbers of documents', 'profile.py:Schema.__call__', 'profile.py:Field.__call__', 'emitters/choice.py:chance', 'emitters/choice.py:Choice')
p('The number of documents with a value follows the binomial distribution',
  'If a field takes its values from a Choice of its own, exactly k of n documents have the value x with the probability C(n, k) q^k (1 - q)^(n - k), where q is the share of the weights of x; and if a field has the gate chance(p), it is filled in exactly k of n documents with the probability C(n, k) p^k (1 - p)^(n - k).',
  'all schemas with such a field, whatever the other fields, all weights, chances and numbers k and n, for generators with independent uniform draws', 'all schemas, weights, chances and numbers of documents', 'profile.py:Schema.__call__', 'profile.py:Field.__call__', 'emitters/choice.py:chance', 'emitters/choice.py:Choice')
p('After n documents the shares are near the weights and chances',
  'If a field takes its values from a Choice of its own, the share of the value x in n documents is at least eps away from the share q of the weights of x with a probability of at most q (1 - q) / (n eps^2); and if a field has the gate chance(p), the share of the n documents in which it is filled is at least eps away from p with a probability of at most p (1 - p) / (n eps^2).',
  'all schemas with such a field, whatever the other fields, all weights, chances, distances eps > 0 and numbers n > 0, for generators with independent uniform draws', 'all schemas, weights, chances, distances and numbers of documents', 'profile.py:Schema.__call__', 'profile.py:Field.__call__', 'emitters/choice.py:chance', 'emitters/choice.py:Choice')
p('Shares far from the weights and chances are exponentially rare',
  'If a field takes its values from a Choice of its own, the share of the value x in n documents is at least eps away from the share of the weights of x with a probability of at most 2 exp(-2 n eps^2), whatever the weights; and the same holds for the share of the n documents in which a field with the gate chance(p) is filled, and p.',
  'all schemas with such a field, whatever the other fields, all weights, chances, distances eps > 0 and numbers n > 0, for generators with independent uniform draws', 'all schemas, weights, chances, distances and numbers of documents', 'profile.py:Schema.__call__', 'profile.py:Field.__call__', 'emitters/choice.py:chance', 'emitters/choice.py:Choice')
p('How often two documents have the same value in a field',
  'If a field takes its values from a Choice of its own, any two different documents of a run have the same value in it with the probability sum of q_x^2 over the different items x, where q_x is the share of the weights of x.',
  'all schemas with such a field, whatever the other fields, all items, weights and pairs of documents, for generators with independent uniform draws', 'all schemas, items, weights and pairs of documents', 'profile.py:Schema.__call__', 'profile.py:Field.__call__', 'emitters/choice.py:Choice')
p('How likely it is that values are missing from a run',
  'If a field takes its values from a Choice of its own, none of n documents has the value x with the probability (1 - q_x)^n, where q_x is the share of the weights of x; and some item is in none of the n documents with a probability of at most the sum of (1 - q_x)^n over the items x.',
  'all schemas with such a field, whatever the other fields, all items, weights and numbers of documents, for generators with independent uniform draws', 'all schemas, items, weights and numbers of documents', 'profile.py:Schema.__call__', 'profile.py:Field.__call__', 'emitters/choice.py:Choice')
