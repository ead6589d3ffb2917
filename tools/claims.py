c('C01', 'proved', 'C01_calendar_range_elements', 'dates and datetimes, user-level dtrange incl. string arguments')
c('C02', 'partial', 'C02_wrong_direction_partial C02_wrong_direction_violated', 'false of the code: negative length makes len/bool/list raise')
c('C03', 'partial', 'C03_time_range_elements_partial C03_full_clock_backwards_violated', 'holds except start == stop with a negative step, where the code raises')
c('C04', 'proved', 'C04_indexing C04_out_of_range C04_reversed dtrange_proper', '')
c('C05', 'partial', 'C05_index C05_index_getItem C05_contains_count C05_other_type C05_first_turn C05_datetime_in_date_range_violated C05_rounded_step_violated C05_more_than_one_turn_violated', 'holds for ranges of at most one turn of the clock (all factory-made ranges); three violations proved; C05_first_turn says which values longer time ranges find')
c('C06', 'partial', 'C06_slice C06_slice_succeeds_partial C06_slice_iff C06_nonempty_iff C06_zero_step C06_time_step_violated C06_rounded_step_violated C06_calendar_edge_violated', 'every successful slice is right (for dates: if the step is whole days, see C08); slices that raise although the list slice exists are proved violations; C06_slice_iff says exactly which slices raise')
c('C07', 'partial', 'C07_eq_sound C07_eq_complete_partial C07_eq_iff C07_eq_complete_violated C07_rounded_step_violated C07_eq_equivalence', 'eq implies equal lists and hashes; converse false for time ranges with opposite signs and for date steps that are no whole days (C08); C07_eq_iff says exactly which ranges with equal lists are unequal')
c('C08', 'partial', 'C08_step_validation_partial C08_rounded_iff C08_rounded_step_violated totalSeconds_nearest', 'False of the code: the check is done on total_seconds(), a rounded double, so date steps of 544 years and more that are no whole days can be accepted, and date arithmetic then truncates. Proved for all shorter steps, all time and all whole-day steps; C08_rounded_iff says exactly which steps are accepted.')
c('C20', 'partial', 'C20_distinct_positions C20_permutation C20_small_total C20_small_nonzero C20_large_returns_partial C20_mismatch C20_zero_draw_violated C20_zero_weight_large C20_negative_number_diverges C20_large_iff C20_float_result C20_float_small_partial C20_float_large_iff C20_float_subnormal_violated', 'every returned result is right and small samples always terminate; large samples raise ValueError on a draw of exactly 0.0 (C20_large_iff: exactly when they return). With doubles the same holds for weights that are 0 or normal numbers; with subnormal weights a small sample may take any number of rounds.')
c('C21', 'proved', 'C21_monotone C21_float_monotone', '')
c('C22', 'proved', 'C22_inside C22_within C22_nearest', '')
c('C23', 'partial', 'C23_poisson_pos C23_poisson_rises C23_poisson_falls C23_poisson_mode C23_poisson_total C23_gaussian_pos C23_gaussian_symm C23_gaussian_mono C23_gaussian_max C23_gaussian_total C23_overflow_iff C23_large_violated C23_nonneg_partial C23_accuracy_partial C23_underflow_violated C23_gaussian_underflow_violated', 'proved for the real functions; the computed floats are not positive where they underflow, and poisson raises OverflowError for x > 170 (C23_overflow_iff: exactly when); where nothing over- or underflows the float is within 2^-50 of the real value (relative)')
c('C09', 'proved', 'C09_with_replacement', '')
c('C10', 'partial', 'C10_interval C10_positive_weight C10_probability C10_float C10_float_ints C10_subnormal_violated C10_absorbed_violated', 'exact in exact arithmetic (probability over the reals, for any generator whose draws are independent and uniform). With doubles: no item of weight 0 is drawn if the total is a normal number or weights are integers; with a subnormal total it can be, and a weight too small for the running sum is never drawn')
c('C11', 'partial', 'C11_chance C11_certain C11_probability C11_float_partial C11_float_iff C11_large_violated', 'exact in exact arithmetic and with doubles for every p of size at most 2^53 - 1, so for all probabilities; for |p| >= 2^54 rounding makes the total 0 and the call raises ValueError (C11_float_iff: for exactly which p)')
c('C12', 'proved', 'C12_prefix_of_permutation C12_count C12_exhausted C12_available', 'all histories in which no assignment replace = False raised (see C19)')
c('C13', 'partial', 'C13_over_ask_exact C13_over_ask_roac_exact C13_over_ask_partial C13_over_ask_roac_partial C13_violated C13_roac_violated', 'nothing is consumed, ever; with items that cannot be hashed the exception is a TypeError instead of the ValueError (the exact theorems say when)')
c('C14', 'partial', 'C14_distinct C14_nodup C14_unweighted_succeeds C14_weighted_succeeds_partial C14_weighted_iff', 'every returned result is right; a large weighted request raises ValueError on a draw of exactly 0.0 (C14_weighted_iff: exactly when)')
c('C15', 'proved', 'C15_roac_replace C15_setters', '')
c('C16', 'partial', 'C16_weights_consistent C16_assignment C16_float_partial C16_rounded_violated', 'exact in exact arithmetic; with doubles the weights computed from assigned cum_weights are rounded and need not add up to them (they do if the differences are doubles)')
c('C17', 'partial', 'C17_without_replacement_partial C17_with_replacement_partial C17_unhashable C17_violated', 'num_unique_values and emits_unique_values raise TypeError exactly for items that cannot be hashed; otherwise all three are right')
c('C18', 'proved', 'C18_reset C18_seed C18_construction', 'later operations must not ask for OS entropy nor be a failing replace = False')
c('C19', 'partial', 'C19_usable_partial C19_failed_replace_violated C19_fails_iff C19_failed_replace', 'false of the code for replace = False with a zero weight; C19_fails_iff says exactly when the assignment fails, C19_failed_replace what every later call does')
c('C24', 'partial', 'C24_weights C24_poisson_iff C24_poisson_choice_partial C24_many_items_violated C24_gaussian_choice_partial C24_gaussian_iff C24_selectable', 'every computed weight is right and at least the floor; poisson_choice raises OverflowError for more than 170 items (C24_poisson_iff: exactly when the weights can be computed). Without replacement a draw of exactly 0.0 still raises ValueError')
c('C25', 'proved', 'C25_static C25_num_unique C25_store', 'C25_store: in a program, whatever happens later.')
c('C26', 'proved', 'C26_iterative C26_sequential C26_splitting', '')
c('C27', 'proved', 'C27_reset_after_call C27_sequential C27_always', '')
c('C28', 'proved', 'C28_construction C28_retarget C28_no_loop', 'an iterator factory is assumed to give the same kind of iterator on every call')
c('C58', 'proved', 'Group.C58_do_method Group.C58_no_attribute_error Group.C58_reaches_all Group.C58_setattr', '')
c('C59', 'proved', 'C59_listed C59_no_replacement C59_unlisted', '')
c('C30', 'proved', 'C30_emit_many C30_emit C30_call C30_store_one C30_store_many', '')
c('C31', 'proved', 'C31_word_emitter C31_bound C31_exact C31_attained', '')
c('C32', 'proved', 'C32_emit_many C32_emit C32_returned C32_store_one C32_store_many', '')
c('C33', 'partial', 'C33_zero_counts_partial C33_violated', 'false of the code: zero-word texts are dropped, text() raises IndexError, and separators fall back to a space')
c('C34', 'proved', 'C34_text_emitter C34_bound C34_zero_count', 'C34_zero_count shows that the condition on the counts is needed')
c('C35', 'proved', 'C35_blocks C35_succeeds C35_store', 'success is stated for a Choice without weights (see C14)')
c('C36', 'proved', 'C36_make_alphabet C36_outside C36_default', '')
c('C37','proved','C37_one C37_many C37_map C37_store_one C37_store_many',
  'Over arbitrary states, sources and callbacks: an exact characterisation (iff) of when WrapOne() and WrapOne(n) return, with which values and in which state; plain map as a corollary. n = 1 uses that em(1) is [em()], proved for every class going through Emitter.__call__.')
c('C38','proved','C38_one C38_many C38_zip C38_store_one C38_store_many',
  'Exact characterisation (iff) over arbitrary sources and callbacks; labels other than "self" (which Python itself rejects).')
c('C40','partial','C40_wrap_one C40_wrap_many_partial C40_based_on_one C40_based_on_many_partial C40_wrap_many_refused C40_self_label C40_violated C40_violated_emission C40_retarget_violated C40_rename_violated',
  'Full for WrapOne and for BasedOnFields on one field.  For WrapMany and several fields proved when no source is labelled rng; with such a label and a callback asking for rng the property is false (C40_violated).  It is also false if set_source_fields or a new field name follow (C40_retarget_violated, C40_rename_violated).  Signature.bind follows CPython 3.11.')
c('C41','proved','C41_not_declared C41_declared C41_receives C41_reproducible',
  'Callbacks are functions of their arguments and, if they declare rng, of the generator.')
c('C42','proved','C42_single C42_many C42_list C42_joined C42_batch C42_store_single C42_store_many C42_store_joined C42_store_batch',
  'Over arbitrary source fields and Python str(); an emitter call never changes the state.')
c('C43','partial','C43_duplicate_partial C43_violated C43_store_partial C43_duplicate_iff',
  'Exact duplicate unless a multi-valued source has an empty list as its value; then the copy is None (C43_violated).')
c('C44','proved','C44_one C44_many C44_batch C44_frame C44_store_one C44_store_many C44_store_batch','Field names distinct and none called "self" for several sources.')
c('C45','partial','C45_consumes_one_call_partial C45_violated C45_store_partial',
  'False of the code: construction calls each source field exactly once (proved) and does not undo it (C45_violated).')
c('C46','proved','C46_field_call C46_repeat_none C46_repeat_int C46_store','')
c('C47','proved','C47_previous C47_store','Over arbitrary histories; the child emitters must not write the field\'s own cache.')
c('C48','partial','C48_single C48_multi C48_violated C48_store_single C48_store_multi','Both directions hold for repeat emitters emitting members of a list items attribute; false for the tuple (None,).')
c('C49','proved','C49_document C49_keys C49_store','')
c('C50','proved','C50_ordered C50_names C50_partition','')
c('C51','proved','C51_same_document C51_after_document C51_store C51_store_after C51_store_copy','For fields none of which is below another one; C51_store_copy: what a copying field gives in each document, by its position.')
c('C56','proved','C56_configuration C56_attributes C56_document','For every object graph of library objects (nesting, sharing, cycles), every call with any argument, returning or raising, and every recursion budget.')
c('C57','proved','C57_only_below C57_document','For every object graph of library objects, every call, every recursion budget.')
c('C54','proved','C54_alike C54_reproducible','For every object graph (nesting, sharing) whose source fields belong to the schema, any history of calls, documents and resets of any objects, returning or raising.')
c('C39','partial','C39_wrap_one C39_wrap_many_partial C39_fresh C39_violated','Full for WrapOne. For WrapMany false if a source raises during the trial (C39_violated): the values drawn before are lost; proved whenever the sources return, whatever the check does.')
c('C53','proved','C53_reset C53_seed C53_newField C53_newWord C53_newText C53_newWrapOne C53_newWrapMany','For every object graph of library objects, rng_seed None included (then only the seeds are given on and everything is rewound).')
c('C52','proved','C52_removed C52_independent','For sets of fields and emitters that contain everything they depend on and have seeds, over every object graph; as long as the schemas produce documents (an exception of an unrelated field ends a document early).')
c('C55','partial','C55_alike_partial C55_history_partial C55_position_violated C55_order_violated','False of the code for Iterative/Sequential emitters and for fields listed before their sources (both with witnesses); proved for all other schemas, over every object graph and every history.')
c('C29','partial','C29_partial C29_built_partial C29_zero_words_violated C29_failed_replace_violated','False of the code for word counts of zero and for a Choice left behind by a failed replace = False (both with witnesses); proved for every other program and every object graph.')
c('C61','proved','C61_bound C61_word C61_text C61_sequential C61_stale_violated','C61_stale_violated: after assigning iterator_factory of an alphabet the count of the Word is out of date, which is why the claim excludes assignments.')
c('C60','proved','C60_values C60_intact','For every program over the library classes, returning or raising, every recursion budget.')
c('C62','proved','C62_call C62_reset C62_seed C62_document C62_resetFields C62_seedFields C62_setWrapper C62_setAction C62_newWord C62_newText C62_newField C62_newWrapOne C62_newWrapMany C62_newBasedOnFields C62_program C62_program_schema C62_program_wrap C62_cycle','C62_cycle shows that the acyclicity condition is needed. Static, Iterative, Sequential, Choice and CopyFields constructors are total functions without recursion budget in the model. Memory and the actual size of the recursion limit are outside the model.')
c('C63','proved','C63_call C63_reset C63_seed C63_document C63_resetFields C63_seedFields C63_setWrapper C63_setAction C63_newWord C63_newText C63_newField C63_newWrapOne C63_newWrapMany C63_newBasedOnFields C63_program','')
c('C64','proved','C64_assign C64_accepts C64_refused C64_emitter C64_repeat C64_gate C64_replaced C64_reset C64_cycle C64_ends','Labels a class does not use are refused in the model.')
c('C65','proved','C65_copy C65_based_on C65_separator C65_refused C65_copy_emits C65_based_on_emits_one C65_based_on_emits_many','')
c('C66','proved','C66_hide_call C66_name_call C66_hide C66_name','')
c('C67','proved','C67_timedelta C67_units C67_microseconds C67_default C67_start_string C67_stop_string C67_refused C67_zero_step','The three fromisoformat functions are parameters: any functions from strings to dates, times and datetimes.')
c('C68','partial','C68_stop_partial C68_exact C68_time C68_overflow_violated C68_time_violated','False of the code: stop raises OverflowError when the next value is beyond the calendar, and for times it may lie in the range, which is then not remade (witnesses). Proved for dates and datetimes whenever stop returns; C68_time says what stop is for times.')
c('C69','proved','C69_reset_source C69_seed_source C69_frame C69_own C69_seeded C69_rewound C69_history','')
c('C70','proved','C70_weighted_shuffle C70_replace_false C70_set_weights C70_roac C70_success','Over the reals, with the natural logarithm and independent uniform draws (hypotheses that replayRng_fair and replayRng_log satisfy); items pairwise different.')
c('C71','proved','C71_permutation C71_independent C71_single C71_sample','em() uses random.choice and unweighted em(n) without repeats random.sample: for these the hypothesis is that _randbelow and sample of the generator are uniform.')
c('C72','partial','GroupList.C72_group_list_partial GroupList.C72_slice_violated GroupList.C72_new_violated GroupList.C72_slice_iff GroupList.C72_group_list_violated','False of the code: UserList builds slices, sums, multiples and copies with self.__class__(one_list), but ObjectGroup.__init__ takes the members as separate arguments, so the new group always has exactly one member and do_method on it silently does nothing. Proved for indexing, copy.copy and all in-place operations.')
c('C73','proved','C73_immutable','')
c('C74','partial','C74_construction_partial C74_castable_violated C74_rounded_step_violated','False of the code: date steps of 544 years and more may be accepted although they are no whole days; a length that is castable to an int but is none (5.0) passes the setter, which casts it, and then raises TypeError in range(0, length). Proved for int lengths.')
c('C75','proved','C75_rebind C75_own_generator C75_assigned_wrapper','')
c('C76','proved','C76_never C76_refused C76_based_on','')
c('C77','proved','C77_uniform C77_weighted C10_float C77_least_normal C77_threshold','')
c('C78','partial','C78_without_replacement_partial C78_gaussian_violated','False of the code: with the default weight_floor of 0 densities underflow to 0 and the shuffle divides by them, for gaussian_choice with default arguments from 39 items on. C78_without_replacement_partial says exactly when construction fails.')
c('C79','proved','C79_weighted C79_uniform C79_chance','')
c('C80','partial','C80_naive C80_elements_partial C80_contains C80_eq_sound C80_eq_complete C80_hash C80_mixed_dtrange C80_edge_of_calendar_violated C80_mixed_in_violated C80_aware_time_violated','False of the code: a naive value looked up in an aware range (or the reverse) raises TypeError; ranges of aware times drop the tzinfo of their elements, so no element is found in the range, start is not the first element and r[:] != r; near the year 9999 or 1 the moment of an element may not exist at the offset of start. Proved for datetimes in all other cases. For zones with daylight saving time see C90.')
c('C81','partial','C81_with_replacement_partial C81_quiet_partial C81_refused C81_no_values_partial C81_take_back_violated C81_values_violated C81_text_violated C81_action_violated','False of the code: a Choice without replacement takes the last values back (they are emitted again) or, if there are not that many, returns values and then claims to have more items than it has; Text draws as many separators; BasedOnFields applies its action. Proved for all other emitters and graphs of them.')
c('C82','partial','C82_batches_partial C82_one_by_one_partial C82_any_two_partial C82_unweighted_violated C82_roac_violated C82_reset_after_call_violated C82_action_violated','False of the code for four kinds of emitters: an unweighted Choice with replacement (random.choice for one value, random.choices for several), replace_only_after_call, reset_after_call, and BasedOnFields with an action that takes rng. Proved (as an equivalence, including the state of all objects) for all graphs without these in which the children of an emitter have nothing in common.')
c('C83','proved','C83_places C83_places_exact C83_positions C83_positions_exact C83_two_choices','')
c('C84','partial','C84_call C84_calls C84_reset C84_init C84_init_empty C84_refused C84_exception C84_recorded C84_concatenation C84_constant C84_after_exception C84_exception_violated C84_shared_violated','The last sentence is false of the code: an exception ends the generator, so that until a reset the emitter raises StopIteration for one value and silently returns an empty list for several. Everything else is proved for all factories. A factory that returns one shared iterator loses its first value to the check, and a call never returns when the iterator is used up.')
c('C85','proved','C85_permutation C85_never_twice C85_iterative C85_sequential C85_gap','Stores that a program can bring about (Built); the emitter is the emitter of one field and below no other field, gate or repeat. C85_gap: a document that fails uses up values all the same.')
c('C86','partial','Alias.C86_never_changed Alias.C86_emitter_never_changes Alias.C86_new_list Alias.C86_independent_partial Alias.C86_own_lists_partial Alias.C86_list_item_violated Alias.C86_shared_copy_violated Alias.C86_shared_repeat_violated Alias.C86_order_violated','False of the code: an item that is a list is handed out itself, a copy of a single-valued field with a list is that very list, [self.emit()] * number repeats one list, and a copy listed before its source sees what the user has made of the list in the last document. The first two sentences are proved for all emitters; the rest for items that are no lists and fields listed after their sources. Proved for lists, not for other objects that can be changed.')
c('C87','proved','C87_seed C87_reset C87_fields','Copies are given by a map of references under which settings agree; emitters with source fields are not covered.')
c('C88','partial','C88_gates_violated C88_values_violated C88_gates_partial C88_values_partial','False of the code whenever the emitters share a seed, which is what seed_fields and the methods seed and reset of a seeded field bring about: all of them draw the same numbers. So with p <= q a document that has the first field always has the second, and in the first document the field never has an item that comes after the first p of the total weight. Proved, as a product of probabilities, for generators that start in independent states with uniform draws.')
c('C89','partial','C89_seeded_violated C89_probability_partial','False of the code for a Word with a seed: seed and reset give the length emitter and the alphabet emitter the same seed, so the same draw decides the length and the first letter of the first word; with lengths 1 and 2 and letters a and b of equal weight the first word is never b, aa or ab. Proved, as a product of probabilities, for generators that start in independent states with uniform draws.')
c('C90','partial','ZDTR.C90_elements ZDTR.C90_slice ZDTR.C90_contains_same ZDTR.C90_contains_other ZDTR.C90_contains_partial ZDTR.C90_hash ZDTR.C90_eq_sound_partial ZDTR.C90_eq_complete_partial ZDTR.C90_dtrange_same ZDTR.C90_dtrange_partial ZDTR.C90_elapsed ZDTR.C90_fixed ZDTR.C90_first_iff ZDTR.C90_contains_violated ZDTR.C90_eq_violated ZDTR.C90_dtrange_violated ZDTR.C90_first_violated','False of the code when zones are mixed over a change of the clock: elements step along the local clock, but values of another zone are looked up by time passed since the start. So in misses elements and finds others, ranges with different elements are equal, and dtrange stops too early or too late. A start in the second of the repeated hours gives a first element an hour earlier. Proved for one tzinfo object throughout, and for several where the clock is not changed within the range; equal hashes are proved without conditions. C90_fixed: for fixed offsets this is the model of C80.')
c('C91','proved','Alias.C91_emitter Alias.C91_documents','For lists as the objects that are shared; the emitters at the bottom are arbitrary, as long as they do the same with lists as with values. The number of values a field asks for is None or an integer.')
c('C92','partial','Refused.C92_refused Refused.C92_first Refused.C92_reseed Refused.C92_reset_partial Refused.C92_reset_fails Refused.C92_reset_violated Refused.C92_schema_violated','False of the code: seed stores the value in rng_seed before random.seed refuses it, so reset raises TypeError until a valid seed is given. Proved: TypeError in all cases, nothing but one rng_seed changes (no generator, so no value), a valid seed repairs everything, and reset does as well for objects that have parts with generators.')
c('C93','partial','C93_without_replacement C93_with_replacement C93_values C93_reset_partial C93_seed_partial C93_weights_reset C93_weights_call_partial C93_single_item_violated C93_only_after_call_stale C93_only_after_call_violated','False of the code in two cases: with replace_only_after_call the number of items is noted once and neither reset nor seed counts again, so a list that has grown never gives all its items in one call; and when a single item is left, superfluous weights go unnoticed. Everything else is proved for all histories.')
c('C94','proved','PyModule.C94_current PyModule.C94_old PyModule.C94_dir PyModule.C94_dir_sorted PyModule.C94_import PyModule.C94_import_missing PyModule.C94_emitters_star','')
c('C95','partial','LiveSeq.C95_follows LiveSeq.C95_members LiveSeq.C95_round LiveSeq.C95_reset LiveSeq.C95_source LiveSeq.C95_num_unique LiveSeq.C95_rest LiveSeq.C95_empty LiveSeq.C95_empty_violated LiveSeq.C95_factory LiveSeq.C95_factory_violated LiveSeq.C95_unchanged LiveSeq.C95_unchanged_init','Two parts are false. When the list is emptied, a call for a value never returns (C95_empty, C95_empty_violated). After iterator_factory is assigned, items and num_unique_values are a snapshot while the values follow the list (C95_factory, C95_factory_violated). The rest is proved for all histories.')
c('C96','partial','LiveSeq.C96_same_partial LiveSeq.C96_same_violated LiveSeq.C96_restore_exact LiveSeq.C96_restore_violated LiveSeq.C96_restore_partial','False for the factory that the constructor makes: it reads items, which every assignment replaces by a tuple. C96_restore_exact says what is emitted instead. Proved for factories of the user, and for self-assignment as long as no list changes.')
c('C97','partial','C97_same_text_iff C97_same_text_partial C97_defined C97_date C97_values C97_object C97_zero_step_violated C97_backwards_violated C97_no_text_violated','False of the code: ranges with a step of zero have the same text whatever their length, so have clock ranges that run backwards and differ by whole days, and repr raises OverflowError when stop is beyond the calendar. C97_same_text_iff says exactly which ranges share a text; proved for all others.')
c('C98','partial','C98_reads_iff C98_unambiguous C98_order C98_str C98_arguments C98_again_partial C98_again_violated','The last sentence is false for times: an empty range comes back as a whole day, the stop "1 day + 10:00:00" of a range of a day or more is no time, and a range that runs backwards for more than a day comes back shorter. Proved for dates, datetimes and non-empty ranges of times of less than a day. The forms are those of Python 3.7 to 3.10 without UTC offsets.')
c('C99','proved','C99_near C99_whole C99_intended C99_mono C99_default C99_refused C99_not_nearest','timedelta of a float is modelled after CPython. C99_not_nearest: the additional 2^-13 is needed.')
c('C100','partial','C100_documents_partial C100_reset C100_consecutive C100_first C100_violated','False of the code at the beginning: constructing each BasedOnFields calls the hidden field once, so as many batches of items as there are derived fields are missing (C100_first, C100_violated; the output in the README cannot occur). All the rest is proved, and everything holds after reset_fields (C100_reset).')
c('C101','partial','GroupMap.C101_histories GroupMap.C101_new GroupMap.C101_or GroupMap.C101_ror GroupMap.C101_equal GroupMap.C101_do_method GroupMap.C101_violated','The last sentence is false: the constructor has a required argument, so copy, copy.copy, copy.deepcopy, pickle.loads and fromkeys all raise TypeError (C101_violated). All the rest is proved for all histories.')
c('C102','partial','GroupMap.C102_map LiveGroup.C102_group_partial LiveGroup.C102_growing LiveGroup.C102_violated LiveGroup.C102_endless','True for ObjectMap, which walks over a copy of the list of members (C102_map). False for ObjectGroup, which walks over itself: a member that leaves makes do_method pass over the next one (C102_violated), and members that add members keep it going for ever (C102_endless). Proved for methods that leave the group as it is, and for growing groups in the form that all members there in the end have been visited.')
c('C103','partial','Cls.C103_order Cls.C103_bases Cls.C103_refused Cls.C103_no_method Cls.C103_reset Cls.C103_seed Cls.C103_init Cls.C103_mixins_first Cls.C103_library Cls.C103_violated Cls.C103_children_violated Cls.C103_subclass_violated','False of the code for reset if Emitter comes before a mixin: Emitter.reset does not call super, so class X(Emitter, RandomMixin) has no generator, class X(Emitter, RandomWithChildrenMixin) hides that when seeded, and class X(Choice, ChildrenMixin) never resets its children (witnesses). C103_reset says exactly which mixins are reached; C103_mixins_first: listing mixins before Emitter in one class is enough for all classes derived from it. Construction and seed are proved without that condition. Python\'s C3 linearisation is part of the model.')
c('C104','proved','C104_document C104_documents C104_deterministic C104_reset C104_counter C104_fibonacci','For actions without a parameter rng, fields with the default repeat and gate.')
c('C105','proved','C105_call C105_document C105_reset C105_seed C105_previous C105_recover C105_reseed C105_finished C105_revive C105_seed_finished','An interrupt may come before or after each step of the model, and leave the generator, iterator and shuffled items of the object it strikes in any state. Constructors and assignments are not interrupted.')
c('C106','proved','C106_seed_twice C106_seed_part C106_seed_fields_twice C106_reset_twice C106_reset_part C106_reset_fields_twice C106_assign C106_order C106_order_fields C106_none_violated C106_seed_only_violated','Everything but the number of entropy reads is compared, for every object of the store. With None as seed the laws fail (C106_none_violated), and seeding alone does not rewind (C106_seed_only_violated). A second reset_fields is the same for fields that are not used as emitters of each other.')
c('C107','proved','C107_woven C107_interleavings C107_untouched C107_two C107_documents C107_shared_violated C107_based_on_violated','The other steps are all constructors, uses and assignments of the model, with any arguments outside the set. The conditions are needed: a shared emitter makes the order matter (C107_shared_violated), and building a BasedOnFields on a field calls that field (C107_based_on_violated).')
c('C108','proved','C108_document C108_raises C108_documents C108_any_order C108_copy_violated C108_shared_violated C108_after_error_violated','Documents after the first are compared as long as none raises: after an exception the fields before the one that raised have been called, and those depend on the order (C108_after_error_violated). The condition is needed: a copy and its source (C108_copy_violated) and two fields over one emitter (C108_shared_violated) cannot be exchanged.')
c('C109','proved','C109_len_set C109_structural C109_without_replacement C109_unhashable C109_promise C109_with_replacement C109_builtin C109_hash_violated C109_order_violated','Built-in values: None, bools, ints, finite floats, nan, strings, tuples and lists. The conditions are needed: with hashes by identity equal values are counted twice (C109_hash_violated), and with an equality that is not transitive the count depends on the shuffle (C109_order_violated).')
c('C110','proved','C110_permutation C110_never_twice C110_iterative C110_sequential C110_reset_violated','The emitter is a Choice without replacement, an Iterative or a Sequential (without reset_after_call). That only objects not above the emitter are reset in between is needed: resetting one of the fields makes values come again in all of them (C110_reset_violated).')
c('C111','partial','C111_failed_violated C111_nested_violated C111_attribute_violated C111_unchecked_violated C111_describes_partial C111_assign C111_new C111_failed C111_call C111_rebound','False of the code: after a failed assignment wants_rng and signature are those of the previous function (C111_failed_violated), wrappers assigned to the attribute function are not rebound (C111_nested_violated), callables with an attribute function are replaced by it (C111_attribute_violated); nor is an assigned function tried as the constructor of WrapOne does (C111_unchecked_violated). Proved for all histories: signature and wants_rng describe the function unless it cannot be called (C111_describes_partial), any later assignment of a callable repairs the wrapper (C111_assign), and calls are those of the function at the end of the chain of wrappers (C111_call).')
c('C112','partial','C112_violated C112_shared_violated C112_owner_partial C112_reset C112_newField C112_newWord C112_newText C112_newWrapOne C112_newWrapMany C112_emitter_seed','False of the code: a Choice with seed 5 in a field without a seed depends on the operating system (C112_violated), and a field with a seed does once another field without one is made of its emitter (C112_shared_violated). Proved for all structures: the seeds and states of the emitters are without influence on the new object and on all that follows, down to equality of the stores, and a seed of the object itself decides everything (C112_owner_partial).')
c('C113','partial','C113_violated C113_stuck_violated C113_call_partial C113_document_partial','False of the code for texts over a seeded list of words with replace_only_after_call: a call puts the generator from 7 back to 2 (C113_violated), and in general all later calls that need more words than there are return the same texts (C113_stuck_violated: any generator, any list of distinct words, any number of words and texts). Proved for all calls and documents without such a Text. The generators are those of Choice objects; what a wrapped function does with its rng is its own affair.')
c('C114','partial','C114_separators_violated C114_counts_violated C114_probability_partial','False of the code for a Text with a seed: words and separators (C114_separators_violated), number of words and first word (C114_counts_violated) go by the same draws. Proved, as a product of probabilities, for generators that start in independent states with uniform draws. Texts must be readable in one way only, for example because separators are single characters that are in no word (legible_of_chars).')
c('C115','partial','C115_violated C115_message C115_exact C115_message_roac C115_read raise_complaint','False of the code only where equal items are left: the message says 2 and three values can be had (C115_violated). Proved: the text of the message, that its second number is smaller, that so many values can be had, that both numbers can be read from it, and that it is the exact limit if the items left are different. Values must be hashable, else the exception is a TypeError (C13).')
c('C116','partial','C116_violated C116_documents_violated C116_probability_partial C116_values','False of the code after seed_fields: the m-th values of two fields are decided by the same draw for every m (C116_violated, C116_documents_violated), whatever the seed and the generator. Proved: the values that a field has in any number of documents are what the draws of its Choice pick one after the other (C116_values, for any gate and repeat), and, for generators in independent random states and fields with one value in each document, independence over any number of documents.')
c('C117','partial','C117_violated C117_own_violated C117_probability_partial C117_values C117_own_values','False of the code after seed: the m-th values of the two sources are decided by the same draw (C117_violated), and the number that the callback draws is the one that has picked the value (C117_own_violated), whatever the seed, the generator and the calls. Proved: exactly which draws go into the values that any sequence of calls returns (C117_values, C117_own_values), and, for two sources in independent random states, the probability of any values over any sequence of calls.')
c('C118','partial','C118_violated C118_probability_partial C118_values','False of the code after seed: the first number of values and the first value are decided by the same draw (C118_violated), whatever the seed and the generator. Proved: in any number of calls the lengths of the lists are what the draws of the repeat emitter pick and their members, taken together, what the draws of the emitter pick (C118_values), and, for emitters in independent random states, the probability of any lists over any number of calls. The gate is a Static that is true; gates that are drawn are C88.')
c('C119','partial','C119_violated C119_noticed_partial C119_exact C119_fields C119_quiet','False of the code for the last field: the end of the iteration is found before changes are looked for (C119_violated). Proved: the exact course of a call whatever the fields do meanwhile (C119_exact, an equivalence), that a document has no other fields than those at the start, in order, that changes of keys by any field but the last raise, and that a call where no field changes keys fails only as a field does. The counter by which OrderedDict iterators notice changes is modelled after CPython 3.11.')
c('C120','proved','C120_own C120_isolated C120_views C120_shared C120_add','For any number of schemas and maps in one heap, with all ways to change an OrderedDict, renaming and hiding fields included.')
c('C121','proved','C121_product C121_one C121_probability','Over the reals, with the natural logarithm and independent uniform draws; items pairwise different and at least two, weights positive. Choices without weights use random.choice and random.sample, for which see C71. The argument, in Stops.indep, is the strong Markov property: draws after a program are independent of what it did, even if it decides by its draws how many it takes.')
c('C122','proved','Cls.C122_abstract Cls.C122_concrete Cls.C122_refused Cls.C122_wrap Cls.C122_library','For user classes without abstract methods of their own (C122_abstract: for those with abstract methods that derive from ABC). Metaclasses other than ABCMeta and changes of a class after its class statement are not modelled. Conform/Abstract compares the collection of abstract methods with CPython on 60 hierarchies.')
c('C123','proved','C123_weighted C123_again C123_uniform','Over the reals, with independent uniform draws; at least two items, weights not negative with a positive sum. Without weights for calls for no or several values: em() and em(1) use random.choice, whose draws from getrandbits are modelled separately (C71). By the strong law of large numbers of Mathlib.')
c('C124','proved','C124_values C124_documents C124_filled','Over the reals, with independent uniform draws of the generator of the Choice (or of the gate); weights not negative with a positive sum. The Choice (or the gate) is used for nothing else in the schema, all documents can be made, and for the first statement the number of values grows without end.')
c('C125','proved','C125_readable C125_exact C125_attained C125_needed','Complements C34, where the number is a bound. C125_needed: with the words a and aa and an empty separator there are three texts of two words, while num_unique_values is four.')
c('C126','proved','C126_average','Over the reals; weights not negative with a positive sum, at least two numbers and two values; the gate is open. While C118 is false for generators that were seeded alike, the averages are right for them too.')
c('C127','proved','C127_words C127_texts C127_word_average C127_text_average','The averages are over the reals with weights that are not negative and have a positive sum; single calls. The shares in texts are for words and separators that can be told apart (C114, C125); numbers of words are at least 1.')
c('C128','partial','C128_seeded_violated C128_pairs_partial C128_same_state','False after seed_fields: all generators get the same seed, so the values of the two fields are decided by the same draws and some combinations never turn up, however many documents are made (C128_seeded_violated). Holds, with probability 1, if the two generators have nothing to do with each other (C128_pairs_partial). C128_same_state says what the share tends to if the two are always in the same state. Over the reals; weights not negative with a positive sum.')
c('C129','proved','C129_call C129_history C129_iterative C129_share C129_documents','For iterators that end; the field uses the Sequential for its values only and no other field uses it (C85).')
c('C130','partial','C130_gates_violated C130_gates_partial C130_same_state C130_value_violated C130_value_partial','False after Schema.seed_fields, which gives all emitters the same seed: with p <= q no document ever has the first field without the second (both are filled with share min p q), and a field with a gate is never filled beside items behind the share p of the weights. Proved for gates and choices with generators of their own.')
c('C131','partial','C131_seeded_violated C131_probability_partial C131_legible','False after seed, which gives the three emitters the same seed: the m-th of all words and the m-th of all separators come from the same draw, as do the number of words of the m-th text and the m-th of all words, so that some sequences of texts are never returned, whatever the seed. Proved for emitters with generators of their own. C114 is the first text only.')
c('C132','partial','C132_seeded_violated C132_probability_partial','False after seed, which gives both emitters the same seed: the length of the m-th word and the m-th of all letters come from the same draw, so that with equal weights the letters returned so far tell the lengths of the words to come. Proved for emitters with generators of their own. C89 is the first word only.')
c('C133','proved','C133_value C133_value_comes C133_gate C133_gate_opens','The field has one value in each document (C133_value); the emitter behind the gate never returns None (C133_gate). A statement about one field at a time, so seeding all emitters alike does not matter.')
c('C134','proved','C134_values C134_filled','The field has one value in each document (C134_values); the emitter behind the gate never returns None (C134_filled). A statement about one field at a time, so seeding all emitters alike does not matter.')
c('C135','proved','C135_values C135_filled','The field has one value in each document (C135_values); the emitter behind the gate never returns None (C135_filled). A statement about one field at a time, so seeding all emitters alike does not matter.')
c('C136','proved','C136_values C136_filled','The field has one value in each document (C136_values); the emitter behind the gate never returns None (C136_filled). A statement about one field at a time, so seeding all emitters alike does not matter.')
c('C137','proved','C137_same','The field has one value in each document. Equal items count as one.')
c('C138','proved','C138_missing C138_cover','The field has one value in each document. C138_cover is an upper bound, not the exact probability.')
