{
 "claims": [
  {
   "property": "C01",
   "status": "proved",
   "theorems": [
    "Fauxdoc.C01_calendar_range_elements"
   ],
   "note": "dates and datetimes, user-level dtrange incl. string arguments"
  },
  {
   "property": "C02",
   "status": "partial",
   "theorems": [
    "Fauxdoc.C02_wrong_direction_partial",
    "Fauxdoc.C02_wrong_direction_violated"
   ],
   "note": "false of the code: negative length makes len/bool/list raise"
  },
  {
   "property": "C03",
   "status": "partial",
   "theorems": [
    "Fauxdoc.C03_time_range_elements_partial",
    "Fauxdoc.C03_full_clock_backwards_violated"
   ],
   "note": "holds except start == stop with a negative step, where the code raises"
  },
  {
   "property": "C04",
   "status": "proved",
   "theorems": [
    "Fauxdoc.C04_indexing",
    "Fauxdoc.C04_out_of_range",
    "Fauxdoc.C04_reversed",
    "Fauxdoc.dtrange_proper"
   ],
   "note": ""
  },
  {
   "property": "C05",
   "status": "partial",
   "theorems": [
    "Fauxdoc.C05_index",
    "Fauxdoc.C05_index_getItem",
    "Fauxdoc.C05_contains_count",
    "Fauxdoc.C05_other_type",
    "Fauxdoc.C05_first_turn",
    "Fauxdoc.C05_datetime_in_date_range_violated",
    "Fauxdoc.C05_rounded_step_violated",
    "Fauxdoc.C05_more_than_one_turn_violated"
   ],
   "note": "holds for ranges of at most one turn of the clock (all factory-made ranges); three violations proved; C05_first_turn says which values longer time ranges find"
  },
  {
   "property": "C06",
   "status": "partial",
   "theorems": [
    "Fauxdoc.C06_slice",
    "Fauxdoc.C06_slice_succeeds_partial",
    "Fauxdoc.C06_slice_iff",
    "Fauxdoc.C06_nonempty_iff",
    "Fauxdoc.C06_zero_step",
    "Fauxdoc.C06_time_step_violated",
    "Fauxdoc.C06_rounded_step_violated",
    "Fauxdoc.C06_calendar_edge_violated"
   ],
   "note": "every successful slice is right (for dates: if the step is whole days, see C08); slices that raise although the list slice exists are proved violations; C06_slice_iff says exactly which slices raise"
  },
  {
   "property": "C07",
   "status": "partial",
   "theorems": [
    "Fauxdoc.C07_eq_sound",
    "Fauxdoc.C07_eq_complete_partial",
    "Fauxdoc.C07_eq_iff",
    "Fauxdoc.C07_eq_complete_violated",
    "Fauxdoc.C07_rounded_step_violated",
    "Fauxdoc.C07_eq_equivalence"
   ],
   "note": "eq implies equal lists and hashes; converse false for time ranges with opposite signs and for date steps that are no whole days (C08); C07_eq_iff says exactly which ranges with equal lists are unequal"
  },
  {
   "property": "C08",
   "status": "partial",
   "theorems": [
    "Fauxdoc.C08_step_validation_partial",
    "Fauxdoc.C08_rounded_iff",
    "Fauxdoc.C08_rounded_step_violated",
    "Fauxdoc.totalSeconds_nearest"
   ],
   "note": "False of the code: the check is done on total_seconds(), a rounded double, so date steps of 544 years and more that are no whole days can be accepted, and date arithmetic then truncates. Proved for all shorter steps, all time and all whole-day steps; C08_rounded_iff says exactly which steps are accepted."
  },
  {
   "property": "C09",
   "status": "proved",
   "theorems": [
    "Fauxdoc.C09_with_replacement"
   ],
   "note": ""
  },
  {
   "property": "C10",
   "status": "partial",
   "theorems": [
    "Fauxdoc.C10_interval",
    "Fauxdoc.C10_positive_weight",
    "Fauxdoc.C10_probability",
    "Fauxdoc.C10_float",
    "Fauxdoc.C10_float_ints",
    "Fauxdoc.C10_subnormal_violated",
    "Fauxdoc.C10_absorbed_violated"
   ],
   "note": "exact in exact arithmetic (probability over the reals, for any generator whose draws are independent and uniform). With doubles: no item of weight 0 is drawn if the total is a normal number or weights are integers; with a subnormal total it can be, and a weight too small for the running sum is never drawn"
  },
  {
   "property": "C11",
   "status": "partial",
   "theorems": [
    "Fauxdoc.C11_chance",
    "Fauxdoc.C11_certain",
    "Fauxdoc.C11_probability",
    "Fauxdoc.C11_float_partial",
    "Fauxdoc.C11_float_iff",
    "Fauxdoc.C11_large_violated"
   ],
   "note": "exact in exact arithmetic and with doubles for every p of size at most 2^53 - 1, so for all probabilities; for |p| >= 2^54 rounding makes the total 0 and the call raises ValueError (C11_float_iff: for exactly which p)"
  },
  {
   "property": "C12",
   "status": "proved",
   "theorems": [
    "Fauxdoc.C12_prefix_of_permutation",
    "Fauxdoc.C12_count",
    "Fauxdoc.C12_exhausted",
    "Fauxdoc.C12_available"
   ],
   "note": "all histories in which no assignment replace = False raised (see C19)"
  },
  {
   "property": "C13",
   "status": "partial",
   "theorems": [
    "Fauxdoc.C13_over_ask_exact",
    "Fauxdoc.C13_over_ask_roac_exact",
    "Fauxdoc.C13_over_ask_partial",
    "Fauxdoc.C13_over_ask_roac_partial",
    "Fauxdoc.C13_violated",
    "Fauxdoc.C13_roac_violated"
   ],
   "note": "nothing is consumed, ever; with items that cannot be hashed the exception is a TypeError instead of the ValueError (the exact theorems say when)"
  },
  {
   "property": "C14",
   "status": "partial",
   "theorems": [
    "Fauxdoc.C14_distinct",
    "Fauxdoc.C14_nodup",
    "Fauxdoc.C14_unweighted_succeeds",
    "Fauxdoc.C14_weighted_succeeds_partial",
    "Fauxdoc.C14_weighted_iff"
   ],
   "note": "every returned result is right; a large weighted request raises ValueError on a draw of exactly 0.0 (C14_weighted_iff: exactly when)"
  },
  {
   "property": "C15",
   "status": "proved",
   "theorems": [
    "Fauxdoc.C15_roac_replace",
    "Fauxdoc.C15_setters"
   ],
   "note": ""
  },
  {
   "property": "C16",
   "status": "partial",
   "theorems": [
    "Fauxdoc.C16_weights_consistent",
    "Fauxdoc.C16_assignment",
    "Fauxdoc.C16_float_partial",
    "Fauxdoc.C16_rounded_violated"
   ],
   "note": "exact in exact arithmetic; with doubles the weights computed from assigned cum_weights are rounded and need not add up to them (they do if the differences are doubles)"
  },
  {
   "property": "C17",
   "status": "partial",
   "theorems": [
    "Fauxdoc.C17_without_replacement_partial",
    "Fauxdoc.C17_with_replacement_partial",
    "Fauxdoc.C17_unhashable",
    "Fauxdoc.C17_violated"
   ],
   "note": "num_unique_values and emits_unique_values raise TypeError exactly for items that cannot be hashed; otherwise all three are right"
  },
  {
   "property": "C18",
   "status": "proved",
   "theorems": [
    "Fauxdoc.C18_reset",
    "Fauxdoc.C18_seed",
    "Fauxdoc.C18_construction"
   ],
   "note": "later operations must not ask for OS entropy nor be a failing replace = False"
  },
  {
   "property": "C19",
   "status": "partial",
   "theorems": [
    "Fauxdoc.C19_usable_partial",
    "Fauxdoc.C19_failed_replace_violated",
    "Fauxdoc.C19_fails_iff",
    "Fauxdoc.C19_failed_replace"
   ],
   "note": "false of the code for replace = False with a zero weight; C19_fails_iff says exactly when the assignment fails, C19_failed_replace what every later call does"
  },
  {
   "property": "C20",
   "status": "partial",
   "theorems": [
    "Fauxdoc.C20_distinct_positions",
    "Fauxdoc.C20_permutation",
    "Fauxdoc.C20_small_total",
    "Fauxdoc.C20_small_nonzero",
    "Fauxdoc.C20_large_returns_partial",
    "Fauxdoc.C20_mismatch",
    "Fauxdoc.C20_zero_draw_violated",
    "Fauxdoc.C20_zero_weight_large",
    "Fauxdoc.C20_negative_number_diverges",
    "Fauxdoc.C20_large_iff",
    "Fauxdoc.C20_float_result",
    "Fauxdoc.C20_float_small_partial",
    "Fauxdoc.C20_float_large_iff",
    "Fauxdoc.C20_float_subnormal_violated"
   ],
   "note": "every returned result is right and small samples always terminate; large samples raise ValueError on a draw of exactly 0.0 (C20_large_iff: exactly when they return). With doubles the same holds for weights that are 0 or normal numbers; with subnormal weights a small sample may take any number of rounds."
  },
  {
   "property": "C21",
   "status": "proved",
   "theorems": [
    "Fauxdoc.C21_monotone",
    "Fauxdoc.C21_float_monotone"
   ],
   "note": ""
  },
  {
   "property": "C22",
   "status": "proved",
   "theorems": [
    "Fauxdoc.C22_inside",
    "Fauxdoc.C22_within",
    "Fauxdoc.C22_nearest"
   ],
   "note": ""
  },
  {
   "property": "C23",
   "status": "partial",
   "theorems": [
    "Fauxdoc.C23_poisson_pos",
    "Fauxdoc.C23_poisson_rises",
    "Fauxdoc.C23_poisson_falls",
    "Fauxdoc.C23_poisson_mode",
    "Fauxdoc.C23_poisson_total",
    "Fauxdoc.C23_gaussian_pos",
    "Fauxdoc.C23_gaussian_symm",
    "Fauxdoc.C23_gaussian_mono",
    "Fauxdoc.C23_gaussian_max",
    "Fauxdoc.C23_gaussian_total",
    "Fauxdoc.C23_overflow_iff",
    "Fauxdoc.C23_large_violated",
    "Fauxdoc.C23_nonneg_partial",
    "Fauxdoc.C23_accuracy_partial",
    "Fauxdoc.C23_underflow_violated",
    "Fauxdoc.C23_gaussian_underflow_violated"
   ],
   "note": "proved for the real functions; the computed floats are not positive where they underflow, and poisson raises OverflowError for x > 170 (C23_overflow_iff: exactly when); where nothing over- or underflows the float is within 2^-50 of the real value (relative)"
  },
  {
   "property": "C24",
   "status": "partial",
   "theorems": [
    "Fauxdoc.C24_weights",
    "Fauxdoc.C24_poisson_iff",
    "Fauxdoc.C24_poisson_choice_partial",
    "Fauxdoc.C24_many_items_violated",
    "Fauxdoc.C24_gaussian_choice_partial",
    "Fauxdoc.C24_gaussian_iff",
    "Fauxdoc.C24_selectable"
   ],
   "note": "every computed weight is right and at least the floor; poisson_choice raises OverflowError for more than 170 items (C24_poisson_iff: exactly when the weights can be computed). Without replacement a draw of exactly 0.0 still raises ValueError"
  },
  {
   "property": "C25",
   "status": "proved",
   "theorems": [
    "Fauxdoc.C25_static",
    "Fauxdoc.C25_num_unique",
    "Fauxdoc.C25_store"
   ],
   "note": "C25_store: in a program, whatever happens later."
  },
  {
   "property": "C26",
   "status": "proved",
   "theorems": [
    "Fauxdoc.C26_iterative",
    "Fauxdoc.C26_sequential",
    "Fauxdoc.C26_splitting"
   ],
   "note": ""
  },
  {
   "property": "C27",
   "status": "proved",
   "theorems": [
    "Fauxdoc.C27_reset_after_call",
    "Fauxdoc.C27_sequential",
    "Fauxdoc.C27_always"
   ],
   "note": ""
  },
  {
   "property": "C28",
   "status": "proved",
   "theorems": [
    "Fauxdoc.C28_construction",
    "Fauxdoc.C28_retarget",
    "Fauxdoc.C28_no_loop"
   ],
   "note": "an iterator factory is assumed to give the same kind of iterator on every call"
  },
  {
   "property": "C29",
   "status": "partial",
   "theorems": [
    "Fauxdoc.C29_partial",
    "Fauxdoc.C29_built_partial",
    "Fauxdoc.C29_zero_words_violated",
    "Fauxdoc.C29_failed_replace_violated"
   ],
   "note": "False of the code for word counts of zero and for a Choice left behind by a failed replace = False (both with witnesses); proved for every other program and every object graph."
  },
  {
   "property": "C30",
   "status": "proved",
   "theorems": [
    "Fauxdoc.C30_emit_many",
    "Fauxdoc.C30_emit",
    "Fauxdoc.C30_call",
    "Fauxdoc.C30_store_one",
    "Fauxdoc.C30_store_many"
   ],
   "note": ""
  },
  {
   "property": "C31",
   "status": "proved",
   "theorems": [
    "Fauxdoc.C31_word_emitter",
    "Fauxdoc.C31_bound",
    "Fauxdoc.C31_exact",
    "Fauxdoc.C31_attained"
   ],
   "note": ""
  },
  {
   "property": "C32",
   "status": "proved",
   "theorems": [
    "Fauxdoc.C32_emit_many",
    "Fauxdoc.C32_emit",
    "Fauxdoc.C32_returned",
    "Fauxdoc.C32_store_one",
    "Fauxdoc.C32_store_many"
   ],
   "note": ""
  },
  {
   "property": "C33",
   "status": "partial",
   "theorems": [
    "Fauxdoc.C33_zero_counts_partial",
    "Fauxdoc.C33_violated"
   ],
   "note": "false of the code: zero-word texts are dropped, text() raises IndexError, and separators fall back to a space"
  },
  {
   "property": "C34",
   "status": "proved",
   "theorems": [
    "Fauxdoc.C34_text_emitter",
    "Fauxdoc.C34_bound",
    "Fauxdoc.C34_zero_count"
   ],
   "note": "C34_zero_count shows that the condition on the counts is needed"
  },
  {
   "property": "C35",
   "status": "proved",
   "theorems": [
    "Fauxdoc.C35_blocks",
    "Fauxdoc.C35_succeeds",
    "Fauxdoc.C35_store"
   ],
   "note": "success is stated for a Choice without weights (see C14)"
  },
  {
   "property": "C36",
   "status": "proved",
   "theorems": [
    "Fauxdoc.C36_make_alphabet",
    "Fauxdoc.C36_outside",
    "Fauxdoc.C36_default"
   ],
   "note": ""
  },
  {
   "property": "C37",
   "status": "proved",
   "theorems": [
    "Fauxdoc.C37_one",
    "Fauxdoc.C37_many",
    "Fauxdoc.C37_map",
    "Fauxdoc.C37_store_one",
    "Fauxdoc.C37_store_many"
   ],
   "note": "Over arbitrary states, sources and callbacks: an exact characterisation (iff) of when WrapOne() and WrapOne(n) return, with which values and in which state; plain map as a corollary. n = 1 uses that em(1) is [em()], proved for every class going through Emitter.__call__."
  },
  {
   "property": "C38",
   "status": "proved",
   "theorems": [
    "Fauxdoc.C38_one",
    "Fauxdoc.C38_many",
    "Fauxdoc.C38_zip",
    "Fauxdoc.C38_store_one",
    "Fauxdoc.C38_store_many"
   ],
   "note": "Exact characterisation (iff) over arbitrary sources and callbacks; labels other than \"self\" (which Python itself rejects)."
  },
  {
   "property": "C39",
   "status": "partial",
   "theorems": [
    "Fauxdoc.C39_wrap_one",
    "Fauxdoc.C39_wrap_many_partial",
    "Fauxdoc.C39_fresh",
    "Fauxdoc.C39_violated"
   ],
   "note": "Full for WrapOne. For WrapMany false if a source raises during the trial (C39_violated): the values drawn before are lost; proved whenever the sources return, whatever the check does."
  },
  {
   "property": "C40",
   "status": "partial",
   "theorems": [
    "Fauxdoc.C40_wrap_one",
    "Fauxdoc.C40_wrap_many_partial",
    "Fauxdoc.C40_based_on_one",
    "Fauxdoc.C40_based_on_many_partial",
    "Fauxdoc.C40_wrap_many_refused",
    "Fauxdoc.C40_self_label",
    "Fauxdoc.C40_violated",
    "Fauxdoc.C40_violated_emission",
    "Fauxdoc.C40_retarget_violated",
    "Fauxdoc.C40_rename_violated"
   ],
   "note": "Full for WrapOne and for BasedOnFields on one field.  For WrapMany and several fields proved when no source is labelled rng; with such a label and a callback asking for rng the property is false (C40_violated).  It is also false if set_source_fields or a new field name follow (C40_retarget_violated, C40_rename_violated).  Signature.bind follows CPython 3.11."
  },
  {
   "property": "C41",
   "status": "proved",
   "theorems": [
    "Fauxdoc.C41_not_declared",
    "Fauxdoc.C41_declared",
    "Fauxdoc.C41_receives",
    "Fauxdoc.C41_reproducible"
   ],
   "note": "Callbacks are functions of their arguments and, if they declare rng, of the generator."
  },
  {
   "property": "C42",
   "status": "proved",
   "theorems": [
    "Fauxdoc.C42_single",
    "Fauxdoc.C42_many",
    "Fauxdoc.C42_list",
    "Fauxdoc.C42_joined",
    "Fauxdoc.C42_batch",
    "Fauxdoc.C42_store_single",
    "Fauxdoc.C42_store_many",
    "Fauxdoc.C42_store_joined",
    "Fauxdoc.C42_store_batch"
   ],
   "note": "Over arbitrary source fields and Python str(); an emitter call never changes the state."
  },
  {
   "property": "C43",
   "status": "partial",
   "theorems": [
    "Fauxdoc.C43_duplicate_partial",
    "Fauxdoc.C43_violated",
    "Fauxdoc.C43_store_partial",
    "Fauxdoc.C43_duplicate_iff"
   ],
   "note": "Exact duplicate unless a multi-valued source has an empty list as its value; then the copy is None (C43_violated)."
  },
  {
   "property": "C44",
   "status": "proved",
   "theorems": [
    "Fauxdoc.C44_one",
    "Fauxdoc.C44_many",
    "Fauxdoc.C44_batch",
    "Fauxdoc.C44_frame",
    "Fauxdoc.C44_store_one",
    "Fauxdoc.C44_store_many",
    "Fauxdoc.C44_store_batch"
   ],
   "note": "Field names distinct and none called \"self\" for several sources."
  },
  {
   "property": "C45",
   "status": "partial",
   "theorems": [
    "Fauxdoc.C45_consumes_one_call_partial",
    "Fauxdoc.C45_violated",
    "Fauxdoc.C45_store_partial"
   ],
   "note": "False of the code: construction calls each source field exactly once (proved) and does not undo it (C45_violated)."
  },
  {
   "property": "C46",
   "status": "proved",
   "theorems": [
    "Fauxdoc.C46_field_call",
    "Fauxdoc.C46_repeat_none",
    "Fauxdoc.C46_repeat_int",
    "Fauxdoc.C46_store"
   ],
   "note": ""
  },
  {
   "property": "C47",
   "status": "proved",
   "theorems": [
    "Fauxdoc.C47_previous",
    "Fauxdoc.C47_store"
   ],
   "note": "Over arbitrary histories; the child emitters must not write the field's own cache."
  },
  {
   "property": "C48",
   "status": "partial",
   "theorems": [
    "Fauxdoc.C48_single",
    "Fauxdoc.C48_multi",
    "Fauxdoc.C48_violated",
    "Fauxdoc.C48_store_single",
    "Fauxdoc.C48_store_multi"
   ],
   "note": "Both directions hold for repeat emitters emitting members of a list items attribute; false for the tuple (None,)."
  },
  {
   "property": "C49",
   "status": "proved",
   "theorems": [
    "Fauxdoc.C49_document",
    "Fauxdoc.C49_keys",
    "Fauxdoc.C49_store"
   ],
   "note": ""
  },
  {
   "property": "C50",
   "status": "proved",
   "theorems": [
    "Fauxdoc.C50_ordered",
    "Fauxdoc.C50_names",
    "Fauxdoc.C50_partition"
   ],
   "note": ""
  },
  {
   "property": "C51",
   "status": "proved",
   "theorems": [
    "Fauxdoc.C51_same_document",
    "Fauxdoc.C51_after_document",
    "Fauxdoc.C51_store",
    "Fauxdoc.C51_store_after",
    "Fauxdoc.C51_store_copy"
   ],
   "note": "For fields none of which is below another one; C51_store_copy: what a copying field gives in each document, by its position."
  },
  {
   "property": "C52",
   "status": "proved",
   "theorems": [
    "Fauxdoc.C52_removed",
    "Fauxdoc.C52_independent"
   ],
   "note": "For sets of fields and emitters that contain everything they depend on and have seeds, over every object graph; as long as the schemas produce documents (an exception of an unrelated field ends a document early)."
  },
  {
   "property": "C53",
   "status": "proved",
   "theorems": [
    "Fauxdoc.C53_reset",
    "Fauxdoc.C53_seed",
    "Fauxdoc.C53_newField",
    "Fauxdoc.C53_newWord",
    "Fauxdoc.C53_newText",
    "Fauxdoc.C53_newWrapOne",
    "Fauxdoc.C53_newWrapMany"
   ],
   "note": "For every object graph of library objects, rng_seed None included (then only the seeds are given on and everything is rewound)."
  },
  {
   "property": "C54",
   "status": "proved",
   "theorems": [
    "Fauxdoc.C54_alike",
    "Fauxdoc.C54_reproducible"
   ],
   "note": "For every object graph (nesting, sharing) whose source fields belong to the schema, any history of calls, documents and resets of any objects, returning or raising."
  },
  {
   "property": "C55",
   "status": "partial",
   "theorems": [
    "Fauxdoc.C55_alike_partial",
    "Fauxdoc.C55_history_partial",
    "Fauxdoc.C55_position_violated",
    "Fauxdoc.C55_order_violated"
   ],
   "note": "False of the code for Iterative/Sequential emitters and for fields listed before their sources (both with witnesses); proved for all other schemas, over every object graph and every history."
  },
  {
   "property": "C56",
   "status": "proved",
   "theorems": [
    "Fauxdoc.C56_configuration",
    "Fauxdoc.C56_attributes",
    "Fauxdoc.C56_document"
   ],
   "note": "For every object graph of library objects (nesting, sharing, cycles), every call with any argument, returning or raising, and every recursion budget."
  },
  {
   "property": "C57",
   "status": "proved",
   "theorems": [
    "Fauxdoc.C57_only_below",
    "Fauxdoc.C57_document"
   ],
   "note": "For every object graph of library objects, every call, every recursion budget."
  },
  {
   "property": "C58",
   "status": "proved",
   "theorems": [
    "Fauxdoc.Group.C58_do_method",
    "Fauxdoc.Group.C58_no_attribute_error",
    "Fauxdoc.Group.C58_reaches_all",
    "Fauxdoc.Group.C58_setattr"
   ],
   "note": ""
  },
  {
   "property": "C59",
   "status": "proved",
   "theorems": [
    "Fauxdoc.C59_listed",
    "Fauxdoc.C59_no_replacement",
    "Fauxdoc.C59_unlisted"
   ],
   "note": ""
  },
  {
   "property": "C60",
   "status": "proved",
   "theorems": [
    "Fauxdoc.C60_values",
    "Fauxdoc.C60_intact"
   ],
   "note": "For every program over the library classes, returning or raising, every recursion budget."
  },
  {
   "property": "C61",
   "status": "proved",
   "theorems": [
    "Fauxdoc.C61_bound",
    "Fauxdoc.C61_word",
    "Fauxdoc.C61_text",
    "Fauxdoc.C61_sequential",
    "Fauxdoc.C61_stale_violated"
   ],
   "note": "C61_stale_violated: after assigning iterator_factory of an alphabet the count of the Word is out of date, which is why the claim excludes assignments."
  },
  {
   "property": "C62",
   "status": "proved",
   "theorems": [
    "Fauxdoc.C62_call",
    "Fauxdoc.C62_reset",
    "Fauxdoc.C62_seed",
    "Fauxdoc.C62_document",
    "Fauxdoc.C62_resetFields",
    "Fauxdoc.C62_seedFields",
    "Fauxdoc.C62_setWrapper",
    "Fauxdoc.C62_setAction",
    "Fauxdoc.C62_newWord",
    "Fauxdoc.C62_newText",
    "Fauxdoc.C62_newField",
    "Fauxdoc.C62_newWrapOne",
    "Fauxdoc.C62_newWrapMany",
    "Fauxdoc.C62_newBasedOnFields",
    "Fauxdoc.C62_program",
    "Fauxdoc.C62_program_schema",
    "Fauxdoc.C62_program_wrap",
    "Fauxdoc.C62_cycle"
   ],
   "note": "C62_cycle shows that the acyclicity condition is needed. Static, Iterative, Sequential, Choice and CopyFields constructors are total functions without recursion budget in the model. Memory and the actual size of the recursion limit are outside the model."
  },
  {
   "property": "C63",
   "status": "proved",
   "theorems": [
    "Fauxdoc.C63_call",
    "Fauxdoc.C63_reset",
    "Fauxdoc.C63_seed",
    "Fauxdoc.C63_document",
    "Fauxdoc.C63_resetFields",
    "Fauxdoc.C63_seedFields",
    "Fauxdoc.C63_setWrapper",
    "Fauxdoc.C63_setAction",
    "Fauxdoc.C63_newWord",
    "Fauxdoc.C63_newText",
    "Fauxdoc.C63_newField",
    "Fauxdoc.C63_newWrapOne",
    "Fauxdoc.C63_newWrapMany",
    "Fauxdoc.C63_newBasedOnFields",
    "Fauxdoc.C63_program"
   ],
   "note": ""
  },
  {
   "property": "C64",
   "status": "proved",
   "theorems": [
    "Fauxdoc.C64_assign",
    "Fauxdoc.C64_accepts",
    "Fauxdoc.C64_refused",
    "Fauxdoc.C64_emitter",
    "Fauxdoc.C64_repeat",
    "Fauxdoc.C64_gate",
    "Fauxdoc.C64_replaced",
    "Fauxdoc.C64_reset",
    "Fauxdoc.C64_cycle",
    "Fauxdoc.C64_ends"
   ],
   "note": "Labels a class does not use are refused in the model."
  },
  {
   "property": "C65",
   "status": "proved",
   "theorems": [
    "Fauxdoc.C65_copy",
    "Fauxdoc.C65_based_on",
    "Fauxdoc.C65_separator",
    "Fauxdoc.C65_refused",
    "Fauxdoc.C65_copy_emits",
    "Fauxdoc.C65_based_on_emits_one",
    "Fauxdoc.C65_based_on_emits_many"
   ],
   "note": ""
  },
  {
   "property": "C66",
   "status": "proved",
   "theorems": [
    "Fauxdoc.C66_hide_call",
    "Fauxdoc.C66_name_call",
    "Fauxdoc.C66_hide",
    "Fauxdoc.C66_name"
   ],
   "note": ""
  },
  {
   "property": "C67",
   "status": "proved",
   "theorems": [
    "Fauxdoc.C67_timedelta",
    "Fauxdoc.C67_units",
    "Fauxdoc.C67_microseconds",
    "Fauxdoc.C67_default",
    "Fauxdoc.C67_start_string",
    "Fauxdoc.C67_stop_string",
    "Fauxdoc.C67_refused",
    "Fauxdoc.C67_zero_step"
   ],
   "note": "The three fromisoformat functions are parameters: any functions from strings to dates, times and datetimes."
  },
  {
   "property": "C68",
   "status": "partial",
   "theorems": [
    "Fauxdoc.C68_stop_partial",
    "Fauxdoc.C68_exact",
    "Fauxdoc.C68_time",
    "Fauxdoc.C68_overflow_violated",
    "Fauxdoc.C68_time_violated"
   ],
   "note": "False of the code: stop raises OverflowError when the next value is beyond the calendar, and for times it may lie in the range, which is then not remade (witnesses). Proved for dates and datetimes whenever stop returns; C68_time says what stop is for times."
  },
  {
   "property": "C69",
   "status": "proved",
   "theorems": [
    "Fauxdoc.C69_reset_source",
    "Fauxdoc.C69_seed_source",
    "Fauxdoc.C69_frame",
    "Fauxdoc.C69_own",
    "Fauxdoc.C69_seeded",
    "Fauxdoc.C69_rewound",
    "Fauxdoc.C69_history"
   ],
   "note": ""
  },
  {
   "property": "C70",
   "status": "proved",
   "theorems": [
    "Fauxdoc.C70_weighted_shuffle",
    "Fauxdoc.C70_replace_false",
    "Fauxdoc.C70_set_weights",
    "Fauxdoc.C70_roac",
    "Fauxdoc.C70_success"
   ],
   "note": "Over the reals, with the natural logarithm and independent uniform draws (hypotheses that replayRng_fair and replayRng_log satisfy); items pairwise different."
  },
  {
   "property": "C71",
   "status": "proved",
   "theorems": [
    "Fauxdoc.C71_permutation",
    "Fauxdoc.C71_independent",
    "Fauxdoc.C71_single",
    "Fauxdoc.C71_sample"
   ],
   "note": "em() uses random.choice and unweighted em(n) without repeats random.sample: for these the hypothesis is that _randbelow and sample of the generator are uniform."
  },
  {
   "property": "C72",
   "status": "partial",
   "theorems": [
    "Fauxdoc.GroupList.C72_group_list_partial",
    "Fauxdoc.GroupList.C72_slice_violated",
    "Fauxdoc.GroupList.C72_new_violated",
    "Fauxdoc.GroupList.C72_slice_iff",
    "Fauxdoc.GroupList.C72_group_list_violated"
   ],
   "note": "False of the code: UserList builds slices, sums, multiples and copies with self.__class__(one_list), but ObjectGroup.__init__ takes the members as separate arguments, so the new group always has exactly one member and do_method on it silently does nothing. Proved for indexing, copy.copy and all in-place operations."
  },
  {
   "property": "C73",
   "status": "proved",
   "theorems": [
    "Fauxdoc.C73_immutable"
   ],
   "note": ""
  },
  {
   "property": "C74",
   "status": "partial",
   "theorems": [
    "Fauxdoc.C74_construction_partial",
    "Fauxdoc.C74_castable_violated",
    "Fauxdoc.C74_rounded_step_violated"
   ],
   "note": "False of the code: date steps of 544 years and more may be accepted although they are no whole days; a length that is castable to an int but is none (5.0) passes the setter, which casts it, and then raises TypeError in range(0, length). Proved for int lengths."
  },
  {
   "property": "C75",
   "status": "proved",
   "theorems": [
    "Fauxdoc.C75_rebind",
    "Fauxdoc.C75_own_generator",
    "Fauxdoc.C75_assigned_wrapper"
   ],
   "note": ""
  },
  {
   "property": "C76",
   "status": "proved",
   "theorems": [
    "Fauxdoc.C76_never",
    "Fauxdoc.C76_refused",
    "Fauxdoc.C76_based_on"
   ],
   "note": ""
  },
  {
   "property": "C77",
   "status": "proved",
   "theorems": [
    "Fauxdoc.C77_uniform",
    "Fauxdoc.C77_weighted",
    "Fauxdoc.C10_float",
    "Fauxdoc.C77_least_normal",
    "Fauxdoc.C77_threshold"
   ],
   "note": ""
  },
  {
   "property": "C78",
   "status": "partial",
   "theorems": [
    "Fauxdoc.C78_without_replacement_partial",
    "Fauxdoc.C78_gaussian_violated"
   ],
   "note": "False of the code: with the default weight_floor of 0 densities underflow to 0 and the shuffle divides by them, for gaussian_choice with default arguments from 39 items on. C78_without_replacement_partial says exactly when construction fails."
  },
  {
   "property": "C79",
   "status": "proved",
   "theorems": [
    "Fauxdoc.C79_weighted",
    "Fauxdoc.C79_uniform",
    "Fauxdoc.C79_chance"
   ],
   "note": ""
  },
  {
   "property": "C80",
   "status": "partial",
   "theorems": [
    "Fauxdoc.C80_naive",
    "Fauxdoc.C80_elements_partial",
    "Fauxdoc.C80_contains",
    "Fauxdoc.C80_eq_sound",
    "Fauxdoc.C80_eq_complete",
    "Fauxdoc.C80_hash",
    "Fauxdoc.C80_mixed_dtrange",
    "Fauxdoc.C80_edge_of_calendar_violated",
    "Fauxdoc.C80_mixed_in_violated",
    "Fauxdoc.C80_aware_time_violated"
   ],
   "note": "False of the code: a naive value looked up in an aware range (or the reverse) raises TypeError; ranges of aware times drop the tzinfo of their elements, so no element is found in the range, start is not the first element and r[:] != r; near the year 9999 or 1 the moment of an element may not exist at the offset of start. Proved for datetimes in all other cases. For zones with daylight saving time see C90."
  },
  {
   "property": "C81",
   "status": "partial",
   "theorems": [
    "Fauxdoc.C81_with_replacement_partial",
    "Fauxdoc.C81_quiet_partial",
    "Fauxdoc.C81_refused",
    "Fauxdoc.C81_no_values_partial",
    "Fauxdoc.C81_take_back_violated",
    "Fauxdoc.C81_values_violated",
    "Fauxdoc.C81_text_violated",
    "Fauxdoc.C81_action_violated"
   ],
   "note": "False of the code: a Choice without replacement takes the last values back (they are emitted again) or, if there are not that many, returns values and then claims to have more items than it has; Text draws as many separators; BasedOnFields applies its action. Proved for all other emitters and graphs of them."
  },
  {
   "property": "C82",
   "status": "partial",
   "theorems": [
    "Fauxdoc.C82_batches_partial",
    "Fauxdoc.C82_one_by_one_partial",
    "Fauxdoc.C82_any_two_partial",
    "Fauxdoc.C82_unweighted_violated",
    "Fauxdoc.C82_roac_violated",
    "Fauxdoc.C82_reset_after_call_violated",
    "Fauxdoc.C82_action_violated"
   ],
   "note": "False of the code for four kinds of emitters: an unweighted Choice with replacement (random.choice for one value, random.choices for several), replace_only_after_call, reset_after_call, and BasedOnFields with an action that takes rng. Proved (as an equivalence, including the state of all objects) for all graphs without these in which the children of an emitter have nothing in common."
  },
  {
   "property": "C83",
   "status": "proved",
   "theorems": [
    "Fauxdoc.C83_places",
    "Fauxdoc.C83_places_exact",
    "Fauxdoc.C83_positions",
    "Fauxdoc.C83_positions_exact",
    "Fauxdoc.C83_two_choices"
   ],
   "note": ""
  },
  {
   "property": "C84",
   "status": "partial",
   "theorems": [
    "Fauxdoc.C84_call",
    "Fauxdoc.C84_calls",
    "Fauxdoc.C84_reset",
    "Fauxdoc.C84_init",
    "Fauxdoc.C84_init_empty",
    "Fauxdoc.C84_refused",
    "Fauxdoc.C84_exception",
    "Fauxdoc.C84_recorded",
    "Fauxdoc.C84_concatenation",
    "Fauxdoc.C84_constant",
    "Fauxdoc.C84_after_exception",
    "Fauxdoc.C84_exception_violated",
    "Fauxdoc.C84_shared_violated"
   ],
   "note": "The last sentence is false of the code: an exception ends the generator, so that until a reset the emitter raises StopIteration for one value and silently returns an empty list for several. Everything else is proved for all factories. A factory that returns one shared iterator loses its first value to the check, and a call never returns when the iterator is used up."
  },
  {
   "property": "C85",
   "status": "proved",
   "theorems": [
    "Fauxdoc.C85_permutation",
    "Fauxdoc.C85_never_twice",
    "Fauxdoc.C85_iterative",
    "Fauxdoc.C85_sequential",
    "Fauxdoc.C85_gap"
   ],
   "note": "Stores that a program can bring about (Built); the emitter is the emitter of one field and below no other field, gate or repeat. C85_gap: a document that fails uses up values all the same."
  },
  {
   "property": "C86",
   "status": "partial",
   "theorems": [
    "Fauxdoc.Alias.C86_never_changed",
    "Fauxdoc.Alias.C86_emitter_never_changes",
    "Fauxdoc.Alias.C86_new_list",
    "Fauxdoc.Alias.C86_independent_partial",
    "Fauxdoc.Alias.C86_own_lists_partial",
    "Fauxdoc.Alias.C86_list_item_violated",
    "Fauxdoc.Alias.C86_shared_copy_violated",
    "Fauxdoc.Alias.C86_shared_repeat_violated",
    "Fauxdoc.Alias.C86_order_violated"
   ],
   "note": "False of the code: an item that is a list is handed out itself, a copy of a single-valued field with a list is that very list, [self.emit()] * number repeats one list, and a copy listed before its source sees what the user has made of the list in the last document. The first two sentences are proved for all emitters; the rest for items that are no lists and fields listed after their sources. Proved for lists, not for other objects that can be changed."
  },
  {
   "property": "C87",
   "status": "proved",
   "theorems": [
    "Fauxdoc.C87_seed",
    "Fauxdoc.C87_reset",
    "Fauxdoc.C87_fields"
   ],
   "note": "Copies are given by a map of references under which settings agree; emitters with source fields are not covered."
  },
  {
   "property": "C88",
   "status": "partial",
   "theorems": [
    "Fauxdoc.C88_gates_violated",
    "Fauxdoc.C88_values_violated",
    "Fauxdoc.C88_gates_partial",
    "Fauxdoc.C88_values_partial"
   ],
   "note": "False of the code whenever the emitters share a seed, which is what seed_fields and the methods seed and reset of a seeded field bring about: all of them draw the same numbers. So with p <= q a document that has the first field always has the second, and in the first document the field never has an item that comes after the first p of the total weight. Proved, as a product of probabilities, for generators that start in independent states with uniform draws."
  },
  {
   "property": "C89",
   "status": "partial",
   "theorems": [
    "Fauxdoc.C89_seeded_violated",
    "Fauxdoc.C89_probability_partial"
   ],
   "note": "False of the code for a Word with a seed: seed and reset give the length emitter and the alphabet emitter the same seed, so the same draw decides the length and the first letter of the first word; with lengths 1 and 2 and letters a and b of equal weight the first word is never b, aa or ab. Proved, as a product of probabilities, for generators that start in independent states with uniform draws."
  },
  {
   "property": "C90",
   "status": "partial",
   "theorems": [
    "Fauxdoc.ZDTR.C90_elements",
    "Fauxdoc.ZDTR.C90_slice",
    "Fauxdoc.ZDTR.C90_contains_same",
    "Fauxdoc.ZDTR.C90_contains_other",
    "Fauxdoc.ZDTR.C90_contains_partial",
    "Fauxdoc.ZDTR.C90_hash",
    "Fauxdoc.ZDTR.C90_eq_sound_partial",
    "Fauxdoc.ZDTR.C90_eq_complete_partial",
    "Fauxdoc.ZDTR.C90_dtrange_same",
    "Fauxdoc.ZDTR.C90_dtrange_partial",
    "Fauxdoc.ZDTR.C90_elapsed",
    "Fauxdoc.ZDTR.C90_fixed",
    "Fauxdoc.ZDTR.C90_first_iff",
    "Fauxdoc.ZDTR.C90_contains_violated",
    "Fauxdoc.ZDTR.C90_eq_violated",
    "Fauxdoc.ZDTR.C90_dtrange_violated",
    "Fauxdoc.ZDTR.C90_first_violated"
   ],
   "note": "False of the code when zones are mixed over a change of the clock: elements step along the local clock, but values of another zone are looked up by time passed since the start. So in misses elements and finds others, ranges with different elements are equal, and dtrange stops too early or too late. A start in the second of the repeated hours gives a first element an hour earlier. Proved for one tzinfo object throughout, and for several where the clock is not changed within the range; equal hashes are proved without conditions. C90_fixed: for fixed offsets this is the model of C80."
  },
  {
   "property": "C91",
   "status": "proved",
   "theorems": [
    "Fauxdoc.Alias.C91_emitter",
    "Fauxdoc.Alias.C91_documents"
   ],
   "note": "For lists as the objects that are shared; the emitters at the bottom are arbitrary, as long as they do the same with lists as with values. The number of values a field asks for is None or an integer."
  },
  {
   "property": "C92",
   "status": "partial",
   "theorems": [
    "Fauxdoc.Refused.C92_refused",
    "Fauxdoc.Refused.C92_first",
    "Fauxdoc.Refused.C92_reseed",
    "Fauxdoc.Refused.C92_reset_partial",
    "Fauxdoc.Refused.C92_reset_fails",
    "Fauxdoc.Refused.C92_reset_violated",
    "Fauxdoc.Refused.C92_schema_violated"
   ],
   "note": "False of the code: seed stores the value in rng_seed before random.seed refuses it, so reset raises TypeError until a valid seed is given. Proved: TypeError in all cases, nothing but one rng_seed changes (no generator, so no value), a valid seed repairs everything, and reset does as well for objects that have parts with generators."
  },
  {
   "property": "C93",
   "status": "partial",
   "theorems": [
    "Fauxdoc.C93_without_replacement",
    "Fauxdoc.C93_with_replacement",
    "Fauxdoc.C93_values",
    "Fauxdoc.C93_reset_partial",
    "Fauxdoc.C93_seed_partial",
    "Fauxdoc.C93_weights_reset",
    "Fauxdoc.C93_weights_call_partial",
    "Fauxdoc.C93_single_item_violated",
    "Fauxdoc.C93_only_after_call_stale",
    "Fauxdoc.C93_only_after_call_violated"
   ],
   "note": "False of the code in two cases: with replace_only_after_call the number of items is noted once and neither reset nor seed counts again, so a list that has grown never gives all its items in one call; and when a single item is left, superfluous weights go unnoticed. Everything else is proved for all histories."
  },
  {
   "property": "C94",
   "status": "proved",
   "theorems": [
    "Fauxdoc.PyModule.C94_current",
    "Fauxdoc.PyModule.C94_old",
    "Fauxdoc.PyModule.C94_dir",
    "Fauxdoc.PyModule.C94_dir_sorted",
    "Fauxdoc.PyModule.C94_import",
    "Fauxdoc.PyModule.C94_import_missing",
    "Fauxdoc.PyModule.C94_emitters_star"
   ],
   "note": ""
  },
  {
   "property": "C95",
   "status": "partial",
   "theorems": [
    "Fauxdoc.LiveSeq.C95_follows",
    "Fauxdoc.LiveSeq.C95_members",
    "Fauxdoc.LiveSeq.C95_round",
    "Fauxdoc.LiveSeq.C95_reset",
    "Fauxdoc.LiveSeq.C95_source",
    "Fauxdoc.LiveSeq.C95_num_unique",
    "Fauxdoc.LiveSeq.C95_rest",
    "Fauxdoc.LiveSeq.C95_empty",
    "Fauxdoc.LiveSeq.C95_empty_violated",
    "Fauxdoc.LiveSeq.C95_factory",
    "Fauxdoc.LiveSeq.C95_factory_violated",
    "Fauxdoc.LiveSeq.C95_unchanged",
    "Fauxdoc.LiveSeq.C95_unchanged_init"
   ],
   "note": "Two parts are false. When the list is emptied, a call for a value never returns (C95_empty, C95_empty_violated). After iterator_factory is assigned, items and num_unique_values are a snapshot while the values follow the list (C95_factory, C95_factory_violated). The rest is proved for all histories."
  },
  {
   "property": "C96",
   "status": "partial",
   "theorems": [
    "Fauxdoc.LiveSeq.C96_same_partial",
    "Fauxdoc.LiveSeq.C96_same_violated",
    "Fauxdoc.LiveSeq.C96_restore_exact",
    "Fauxdoc.LiveSeq.C96_restore_violated",
    "Fauxdoc.LiveSeq.C96_restore_partial"
   ],
   "note": "False for the factory that the constructor makes: it reads items, which every assignment replaces by a tuple. C96_restore_exact says what is emitted instead. Proved for factories of the user, and for self-assignment as long as no list changes."
  },
  {
   "property": "C97",
   "status": "partial",
   "theorems": [
    "Fauxdoc.C97_same_text_iff",
    "Fauxdoc.C97_same_text_partial",
    "Fauxdoc.C97_defined",
    "Fauxdoc.C97_date",
    "Fauxdoc.C97_values",
    "Fauxdoc.C97_object",
    "Fauxdoc.C97_zero_step_violated",
    "Fauxdoc.C97_backwards_violated",
    "Fauxdoc.C97_no_text_violated"
   ],
   "note": "False of the code: ranges with a step of zero have the same text whatever their length, so have clock ranges that run backwards and differ by whole days, and repr raises OverflowError when stop is beyond the calendar. C97_same_text_iff says exactly which ranges share a text; proved for all others."
  },
  {
   "property": "C98",
   "status": "partial",
   "theorems": [
    "Fauxdoc.C98_reads_iff",
    "Fauxdoc.C98_unambiguous",
    "Fauxdoc.C98_order",
    "Fauxdoc.C98_str",
    "Fauxdoc.C98_arguments",
    "Fauxdoc.C98_again_partial",
    "Fauxdoc.C98_again_violated"
   ],
   "note": "The last sentence is false for times: an empty range comes back as a whole day, the stop \"1 day + 10:00:00\" of a range of a day or more is no time, and a range that runs backwards for more than a day comes back shorter. Proved for dates, datetimes and non-empty ranges of times of less than a day. The forms are those of Python 3.7 to 3.10 without UTC offsets."
  },
  {
   "property": "C99",
   "status": "proved",
   "theorems": [
    "Fauxdoc.C99_near",
    "Fauxdoc.C99_whole",
    "Fauxdoc.C99_intended",
    "Fauxdoc.C99_mono",
    "Fauxdoc.C99_default",
    "Fauxdoc.C99_refused",
    "Fauxdoc.C99_not_nearest"
   ],
   "note": "timedelta of a float is modelled after CPython. C99_not_nearest: the additional 2^-13 is needed."
  },
  {
   "property": "C100",
   "status": "partial",
   "theorems": [
    "Fauxdoc.C100_documents_partial",
    "Fauxdoc.C100_reset",
    "Fauxdoc.C100_consecutive",
    "Fauxdoc.C100_first",
    "Fauxdoc.C100_violated"
   ],
   "note": "False of the code at the beginning: constructing each BasedOnFields calls the hidden field once, so as many batches of items as there are derived fields are missing (C100_first, C100_violated; the output in the README cannot occur). All the rest is proved, and everything holds after reset_fields (C100_reset)."
  },
  {
   "property": "C101",
   "status": "partial",
   "theorems": [
    "Fauxdoc.GroupMap.C101_histories",
    "Fauxdoc.GroupMap.C101_new",
    "Fauxdoc.GroupMap.C101_or",
    "Fauxdoc.GroupMap.C101_ror",
    "Fauxdoc.GroupMap.C101_equal",
    "Fauxdoc.GroupMap.C101_do_method",
    "Fauxdoc.GroupMap.C101_violated"
   ],
   "note": "The last sentence is false: the constructor has a required argument, so copy, copy.copy, copy.deepcopy, pickle.loads and fromkeys all raise TypeError (C101_violated). All the rest is proved for all histories."
  },
  {
   "property": "C102",
   "status": "partial",
   "theorems": [
    "Fauxdoc.GroupMap.C102_map",
    "Fauxdoc.LiveGroup.C102_group_partial",
    "Fauxdoc.LiveGroup.C102_growing",
    "Fauxdoc.LiveGroup.C102_violated",
    "Fauxdoc.LiveGroup.C102_endless"
   ],
   "note": "True for ObjectMap, which walks over a copy of the list of members (C102_map). False for ObjectGroup, which walks over itself: a member that leaves makes do_method pass over the next one (C102_violated), and members that add members keep it going for ever (C102_endless). Proved for methods that leave the group as it is, and for growing groups in the form that all members there in the end have been visited."
  },
  {
   "property": "C103",
   "status": "partial",
   "theorems": [
    "Fauxdoc.Cls.C103_order",
    "Fauxdoc.Cls.C103_bases",
    "Fauxdoc.Cls.C103_refused",
    "Fauxdoc.Cls.C103_no_method",
    "Fauxdoc.Cls.C103_reset",
    "Fauxdoc.Cls.C103_seed",
    "Fauxdoc.Cls.C103_init",
    "Fauxdoc.Cls.C103_mixins_first",
    "Fauxdoc.Cls.C103_library",
    "Fauxdoc.Cls.C103_violated",
    "Fauxdoc.Cls.C103_children_violated",
    "Fauxdoc.Cls.C103_subclass_violated"
   ],
   "note": "False of the code for reset if Emitter comes before a mixin: Emitter.reset does not call super, so class X(Emitter, RandomMixin) has no generator, class X(Emitter, RandomWithChildrenMixin) hides that when seeded, and class X(Choice, ChildrenMixin) never resets its children (witnesses). C103_reset says exactly which mixins are reached; C103_mixins_first: listing mixins before Emitter in one class is enough for all classes derived from it. Construction and seed are proved without that condition. Python's C3 linearisation is part of the model."
  },
  {
   "property": "C104",
   "status": "proved",
   "theorems": [
    "Fauxdoc.C104_document",
    "Fauxdoc.C104_documents",
    "Fauxdoc.C104_deterministic",
    "Fauxdoc.C104_reset",
    "Fauxdoc.C104_counter",
    "Fauxdoc.C104_fibonacci"
   ],
   "note": "For actions without a parameter rng, fields with the default repeat and gate."
  },
  {
   "property": "C105",
   "status": "proved",
   "theorems": [
    "Fauxdoc.C105_call",
    "Fauxdoc.C105_document",
    "Fauxdoc.C105_reset",
    "Fauxdoc.C105_seed",
    "Fauxdoc.C105_previous",
    "Fauxdoc.C105_recover",
    "Fauxdoc.C105_reseed",
    "Fauxdoc.C105_finished",
    "Fauxdoc.C105_revive",
    "Fauxdoc.C105_seed_finished"
   ],
   "note": "An interrupt may come before or after each step of the model, and leave the generator, iterator and shuffled items of the object it strikes in any state. Constructors and assignments are not interrupted."
  },
  {
   "property": "C106",
   "status": "proved",
   "theorems": [
    "Fauxdoc.C106_seed_twice",
    "Fauxdoc.C106_seed_part",
    "Fauxdoc.C106_seed_fields_twice",
    "Fauxdoc.C106_reset_twice",
    "Fauxdoc.C106_reset_part",
    "Fauxdoc.C106_reset_fields_twice",
    "Fauxdoc.C106_assign",
    "Fauxdoc.C106_order",
    "Fauxdoc.C106_order_fields",
    "Fauxdoc.C106_none_violated",
    "Fauxdoc.C106_seed_only_violated"
   ],
   "note": "Everything but the number of entropy reads is compared, for every object of the store. With None as seed the laws fail (C106_none_violated), and seeding alone does not rewind (C106_seed_only_violated). A second reset_fields is the same for fields that are not used as emitters of each other."
  },
  {
   "property": "C107",
   "status": "proved",
   "theorems": [
    "Fauxdoc.C107_woven",
    "Fauxdoc.C107_interleavings",
    "Fauxdoc.C107_untouched",
    "Fauxdoc.C107_two",
    "Fauxdoc.C107_documents",
    "Fauxdoc.C107_shared_violated",
    "Fauxdoc.C107_based_on_violated"
   ],
   "note": "The other steps are all constructors, uses and assignments of the model, with any arguments outside the set. The conditions are needed: a shared emitter makes the order matter (C107_shared_violated), and building a BasedOnFields on a field calls that field (C107_based_on_violated)."
  },
  {
   "property": "C108",
   "status": "proved",
   "theorems": [
    "Fauxdoc.C108_document",
    "Fauxdoc.C108_raises",
    "Fauxdoc.C108_documents",
    "Fauxdoc.C108_any_order",
    "Fauxdoc.C108_copy_violated",
    "Fauxdoc.C108_shared_violated",
    "Fauxdoc.C108_after_error_violated"
   ],
   "note": "Documents after the first are compared as long as none raises: after an exception the fields before the one that raised have been called, and those depend on the order (C108_after_error_violated). The condition is needed: a copy and its source (C108_copy_violated) and two fields over one emitter (C108_shared_violated) cannot be exchanged."
  },
  {
   "property": "C109",
   "status": "proved",
   "theorems": [
    "Fauxdoc.C109_len_set",
    "Fauxdoc.C109_structural",
    "Fauxdoc.C109_without_replacement",
    "Fauxdoc.C109_unhashable",
    "Fauxdoc.C109_promise",
    "Fauxdoc.C109_with_replacement",
    "Fauxdoc.C109_builtin",
    "Fauxdoc.C109_hash_violated",
    "Fauxdoc.C109_order_violated"
   ],
   "note": "Built-in values: None, bools, ints, finite floats, nan, strings, tuples and lists. The conditions are needed: with hashes by identity equal values are counted twice (C109_hash_violated), and with an equality that is not transitive the count depends on the shuffle (C109_order_violated)."
  },
  {
   "property": "C110",
   "status": "proved",
   "theorems": [
    "Fauxdoc.C110_permutation",
    "Fauxdoc.C110_never_twice",
    "Fauxdoc.C110_iterative",
    "Fauxdoc.C110_sequential",
    "Fauxdoc.C110_reset_violated"
   ],
   "note": "The emitter is a Choice without replacement, an Iterative or a Sequential (without reset_after_call). That only objects not above the emitter are reset in between is needed: resetting one of the fields makes values come again in all of them (C110_reset_violated)."
  },
  {
   "property": "C111",
   "status": "partial",
   "theorems": [
    "Fauxdoc.C111_failed_violated",
    "Fauxdoc.C111_nested_violated",
    "Fauxdoc.C111_attribute_violated",
    "Fauxdoc.C111_unchecked_violated",
    "Fauxdoc.C111_describes_partial",
    "Fauxdoc.C111_assign",
    "Fauxdoc.C111_new",
    "Fauxdoc.C111_failed",
    "Fauxdoc.C111_call",
    "Fauxdoc.C111_rebound"
   ],
   "note": "False of the code: after a failed assignment wants_rng and signature are those of the previous function (C111_failed_violated), wrappers assigned to the attribute function are not rebound (C111_nested_violated), callables with an attribute function are replaced by it (C111_attribute_violated); nor is an assigned function tried as the constructor of WrapOne does (C111_unchecked_violated). Proved for all histories: signature and wants_rng describe the function unless it cannot be called (C111_describes_partial), any later assignment of a callable repairs the wrapper (C111_assign), and calls are those of the function at the end of the chain of wrappers (C111_call)."
  },
  {
   "property": "C112",
   "status": "partial",
   "theorems": [
    "Fauxdoc.C112_violated",
    "Fauxdoc.C112_shared_violated",
    "Fauxdoc.C112_owner_partial",
    "Fauxdoc.C112_reset",
    "Fauxdoc.C112_newField",
    "Fauxdoc.C112_newWord",
    "Fauxdoc.C112_newText",
    "Fauxdoc.C112_newWrapOne",
    "Fauxdoc.C112_newWrapMany",
    "Fauxdoc.C112_emitter_seed"
   ],
   "note": "False of the code: a Choice with seed 5 in a field without a seed depends on the operating system (C112_violated), and a field with a seed does once another field without one is made of its emitter (C112_shared_violated). Proved for all structures: the seeds and states of the emitters are without influence on the new object and on all that follows, down to equality of the stores, and a seed of the object itself decides everything (C112_owner_partial)."
  },
  {
   "property": "C113",
   "status": "partial",
   "theorems": [
    "Fauxdoc.C113_violated",
    "Fauxdoc.C113_stuck_violated",
    "Fauxdoc.C113_call_partial",
    "Fauxdoc.C113_document_partial"
   ],
   "note": "False of the code for texts over a seeded list of words with replace_only_after_call: a call puts the generator from 7 back to 2 (C113_violated), and in general all later calls that need more words than there are return the same texts (C113_stuck_violated: any generator, any list of distinct words, any number of words and texts). Proved for all calls and documents without such a Text. The generators are those of Choice objects; what a wrapped function does with its rng is its own affair."
  },
  {
   "property": "C114",
   "status": "partial",
   "theorems": [
    "Fauxdoc.C114_separators_violated",
    "Fauxdoc.C114_counts_violated",
    "Fauxdoc.C114_probability_partial"
   ],
   "note": "False of the code for a Text with a seed: words and separators (C114_separators_violated), number of words and first word (C114_counts_violated) go by the same draws. Proved, as a product of probabilities, for generators that start in independent states with uniform draws. Texts must be readable in one way only, for example because separators are single characters that are in no word (legible_of_chars)."
  },
  {
   "property": "C115",
   "status": "partial",
   "theorems": [
    "Fauxdoc.C115_violated",
    "Fauxdoc.C115_message",
    "Fauxdoc.C115_exact",
    "Fauxdoc.C115_message_roac",
    "Fauxdoc.C115_read",
    "Fauxdoc.raise_complaint"
   ],
   "note": "False of the code only where equal items are left: the message says 2 and three values can be had (C115_violated). Proved: the text of the message, that its second number is smaller, that so many values can be had, that both numbers can be read from it, and that it is the exact limit if the items left are different. Values must be hashable, else the exception is a TypeError (C13)."
  },
  {
   "property": "C116",
   "status": "partial",
   "theorems": [
    "Fauxdoc.C116_violated",
    "Fauxdoc.C116_documents_violated",
    "Fauxdoc.C116_probability_partial",
    "Fauxdoc.C116_values"
   ],
   "note": "False of the code after seed_fields: the m-th values of two fields are decided by the same draw for every m (C116_violated, C116_documents_violated), whatever the seed and the generator. Proved: the values that a field has in any number of documents are what the draws of its Choice pick one after the other (C116_values, for any gate and repeat), and, for generators in independent random states and fields with one value in each document, independence over any number of documents."
  },
  {
   "property": "C117",
   "status": "partial",
   "theorems": [
    "Fauxdoc.C117_violated",
    "Fauxdoc.C117_own_violated",
    "Fauxdoc.C117_probability_partial",
    "Fauxdoc.C117_values",
    "Fauxdoc.C117_own_values"
   ],
   "note": "False of the code after seed: the m-th values of the two sources are decided by the same draw (C117_violated), and the number that the callback draws is the one that has picked the value (C117_own_violated), whatever the seed, the generator and the calls. Proved: exactly which draws go into the values that any sequence of calls returns (C117_values, C117_own_values), and, for two sources in independent random states, the probability of any values over any sequence of calls."
  },
  {
   "property": "C118",
   "status": "partial",
   "theorems": [
    "Fauxdoc.C118_violated",
    "Fauxdoc.C118_probability_partial",
    "Fauxdoc.C118_values"
   ],
   "note": "False of the code after seed: the first number of values and the first value are decided by the same draw (C118_violated), whatever the seed and the generator. Proved: in any number of calls the lengths of the lists are what the draws of the repeat emitter pick and their members, taken together, what the draws of the emitter pick (C118_values), and, for emitters in independent random states, the probability of any lists over any number of calls. The gate is a Static that is true; gates that are drawn are C88."
  },
  {
   "property": "C119",
   "status": "partial",
   "theorems": [
    "Fauxdoc.C119_violated",
    "Fauxdoc.C119_noticed_partial",
    "Fauxdoc.C119_exact",
    "Fauxdoc.C119_fields",
    "Fauxdoc.C119_quiet"
   ],
   "note": "False of the code for the last field: the end of the iteration is found before changes are looked for (C119_violated). Proved: the exact course of a call whatever the fields do meanwhile (C119_exact, an equivalence), that a document has no other fields than those at the start, in order, that changes of keys by any field but the last raise, and that a call where no field changes keys fails only as a field does. The counter by which OrderedDict iterators notice changes is modelled after CPython 3.11."
  },
  {
   "property": "C120",
   "status": "proved",
   "theorems": [
    "Fauxdoc.C120_own",
    "Fauxdoc.C120_isolated",
    "Fauxdoc.C120_views",
    "Fauxdoc.C120_shared",
    "Fauxdoc.C120_add"
   ],
   "note": "For any number of schemas and maps in one heap, with all ways to change an OrderedDict, renaming and hiding fields included."
  },
  {
   "property": "C121",
   "status": "proved",
   "theorems": [
    "Fauxdoc.C121_product",
    "Fauxdoc.C121_one",
    "Fauxdoc.C121_probability"
   ],
   "note": "Over the reals, with the natural logarithm and independent uniform draws; items pairwise different and at least two, weights positive. Choices without weights use random.choice and random.sample, for which see C71. The argument, in Stops.indep, is the strong Markov property: draws after a program are independent of what it did, even if it decides by its draws how many it takes."
  },
  {
   "property": "C122",
   "status": "proved",
   "theorems": [
    "Fauxdoc.Cls.C122_abstract",
    "Fauxdoc.Cls.C122_concrete",
    "Fauxdoc.Cls.C122_refused",
    "Fauxdoc.Cls.C122_wrap",
    "Fauxdoc.Cls.C122_library"
   ],
   "note": "For user classes without abstract methods of their own (C122_abstract: for those with abstract methods that derive from ABC). Metaclasses other than ABCMeta and changes of a class after its class statement are not modelled. Conform/Abstract compares the collection of abstract methods with CPython on 60 hierarchies."
  },
  {
   "property": "C123",
   "status": "proved",
   "theorems": [
    "Fauxdoc.C123_weighted",
    "Fauxdoc.C123_again",
    "Fauxdoc.C123_uniform"
   ],
   "note": "Over the reals, with independent uniform draws; at least two items, weights not negative with a positive sum. Without weights for calls for no or several values: em() and em(1) use random.choice, whose draws from getrandbits are modelled separately (C71). By the strong law of large numbers of Mathlib."
  },
  {
   "property": "C124",
   "status": "proved",
   "theorems": [
    "Fauxdoc.C124_values",
    "Fauxdoc.C124_documents",
    "Fauxdoc.C124_filled"
   ],
   "note": "Over the reals, with independent uniform draws of the generator of the Choice (or of the gate); weights not negative with a positive sum. The Choice (or the gate) is used for nothing else in the schema, all documents can be made, and for the first statement the number of values grows without end."
  },
  {
   "property": "C125",
   "status": "proved",
   "theorems": [
    "Fauxdoc.C125_readable",
    "Fauxdoc.C125_exact",
    "Fauxdoc.C125_attained",
    "Fauxdoc.C125_needed"
   ],
   "note": "Complements C34, where the number is a bound. C125_needed: with the words a and aa and an empty separator there are three texts of two words, while num_unique_values is four."
  },
  {
   "property": "C126",
   "status": "proved",
   "theorems": [
    "Fauxdoc.C126_average"
   ],
   "note": "Over the reals; weights not negative with a positive sum, at least two numbers and two values; the gate is open. While C118 is false for generators that were seeded alike, the averages are right for them too."
  },
  {
   "property": "C127",
   "status": "proved",
   "theorems": [
    "Fauxdoc.C127_words",
    "Fauxdoc.C127_texts",
    "Fauxdoc.C127_word_average",
    "Fauxdoc.C127_text_average"
   ],
   "note": "The averages are over the reals with weights that are not negative and have a positive sum; single calls. The shares in texts are for words and separators that can be told apart (C114, C125); numbers of words are at least 1."
  },
  {
   "property": "C128",
   "status": "partial",
   "theorems": [
    "Fauxdoc.C128_seeded_violated",
    "Fauxdoc.C128_pairs_partial",
    "Fauxdoc.C128_same_state"
   ],
   "note": "False after seed_fields: all generators get the same seed, so the values of the two fields are decided by the same draws and some combinations never turn up, however many documents are made (C128_seeded_violated). Holds, with probability 1, if the two generators have nothing to do with each other (C128_pairs_partial). C128_same_state says what the share tends to if the two are always in the same state. Over the reals; weights not negative with a positive sum."
  },
  {
   "property": "C129",
   "status": "proved",
   "theorems": [
    "Fauxdoc.C129_call",
    "Fauxdoc.C129_history",
    "Fauxdoc.C129_iterative",
    "Fauxdoc.C129_share",
    "Fauxdoc.C129_documents"
   ],
   "note": "For iterators that end; the field uses the Sequential for its values only and no other field uses it (C85)."
  },
  {
   "property": "C130",
   "status": "partial",
   "theorems": [
    "Fauxdoc.C130_gates_violated",
    "Fauxdoc.C130_gates_partial",
    "Fauxdoc.C130_same_state",
    "Fauxdoc.C130_value_violated",
    "Fauxdoc.C130_value_partial"
   ],
   "note": "False after Schema.seed_fields, which gives all emitters the same seed: with p <= q no document ever has the first field without the second (both are filled with share min p q), and a field with a gate is never filled beside items behind the share p of the weights. Proved for gates and choices with generators of their own."
  },
  {
   "property": "C131",
   "status": "partial",
   "theorems": [
    "Fauxdoc.C131_seeded_violated",
    "Fauxdoc.C131_probability_partial",
    "Fauxdoc.C131_legible"
   ],
   "note": "False after seed, which gives the three emitters the same seed: the m-th of all words and the m-th of all separators come from the same draw, as do the number of words of the m-th text and the m-th of all words, so that some sequences of texts are never returned, whatever the seed. Proved for emitters with generators of their own. C114 is the first text only."
  },
  {
   "property": "C132",
   "status": "partial",
   "theorems": [
    "Fauxdoc.C132_seeded_violated",
    "Fauxdoc.C132_probability_partial"
   ],
   "note": "False after seed, which gives both emitters the same seed: the length of the m-th word and the m-th of all letters come from the same draw, so that with equal weights the letters returned so far tell the lengths of the words to come. Proved for emitters with generators of their own. C89 is the first word only."
  },
  {
   "property": "C133",
   "status": "proved",
   "theorems": [
    "Fauxdoc.C133_value",
    "Fauxdoc.C133_value_comes",
    "Fauxdoc.C133_gate",
    "Fauxdoc.C133_gate_opens"
   ],
   "note": "The field has one value in each document (C133_value); the emitter behind the gate never returns None (C133_gate). A statement about one field at a time, so seeding all emitters alike does not matter."
  },
  {
   "property": "C134",
   "status": "proved",
   "theorems": [
    "Fauxdoc.C134_values",
    "Fauxdoc.C134_filled"
   ],
   "note": "The field has one value in each document (C134_values); the emitter behind the gate never returns None (C134_filled). A statement about one field at a time, so seeding all emitters alike does not matter."
  },
  {
   "property": "C135",
   "status": "proved",
   "theorems": [
    "Fauxdoc.C135_values",
    "Fauxdoc.C135_filled"
   ],
   "note": "The field has one value in each document (C135_values); the emitter behind the gate never returns None (C135_filled). A statement about one field at a time, so seeding all emitters alike does not matter."
  },
  {
   "property": "C136",
   "status": "proved",
   "theorems": [
    "Fauxdoc.C136_values",
    "Fauxdoc.C136_filled"
   ],
   "note": "The field has one value in each document (C136_values); the emitter behind the gate never returns None (C136_filled). A statement about one field at a time, so seeding all emitters alike does not matter."
  },
  {
   "property": "C137",
   "status": "proved",
   "theorems": [
    "Fauxdoc.C137_same"
   ],
   "note": "The field has one value in each document. Equal items count as one."
  },
  {
   "property": "C138",
   "status": "proved",
   "theorems": [
    "Fauxdoc.C138_missing",
    "Fauxdoc.C138_cover"
   ],
   "note": "The field has one value in each document. C138_cover is an upper bound, not the exact probability."
  }
 ]
}