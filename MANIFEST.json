{
 "claims": [
  {
   "property": "C01",
   "status": "proved",
   "theorems": [
    "Expression.Props.C01_lookups_refine_dictionary"
   ],
   "note": "Refinement over arbitrary histories; callbacks of histories are effect-free, effectful ones are C07, C08, C14."
  },
  {
   "property": "C02",
   "status": "proved",
   "theorems": [
    "Expression.Props.C02_enumeration_ascending_complete"
   ],
   "note": "For every map reachable through the public API with arbitrary effectful callbacks."
  },
  {
   "property": "C03",
   "status": "proved",
   "theorems": [
    "Expression.Props.C03_len_counts_distinct_keys"
   ],
   "note": ""
  },
  {
   "property": "C04",
   "status": "proved",
   "theorems": [
    "Expression.Props.C04_no_internal_error"
   ],
   "note": "Internal failures, ValueError from missing subtrees and StopIteration are errors of the model that are proved unreachable."
  },
  {
   "property": "C05",
   "status": "proved",
   "theorems": [
    "Expression.Props.C05_lookup_compares_only_on_searchPath",
    "Expression.Props.C05_insertion_built_balanced"
   ],
   "note": "Balance, depth <= 2 log2(len+1), and a lookup compares only along a path of that length."
  },
  {
   "property": "C06",
   "status": "partial",
   "theorems": [
    "Expression.Props.C06_violated_unboundedly",
    "Expression.Props.C06_full_statement_false",
    "Expression.Props.C06_violated_linear",
    "Expression.Props.C06_depth_at_most_len",
    "Expression.Props.C06_removal_never_deepens_partial"
   ],
   "note": "Full statement refuted: the imbalance is unbounded under removals, and for every n there is a map of n entries with n levels (C06_violated_linear), built by add and remove alone. Proved: removals never deepen the tree, stored heights stay exact, and no map has more levels than entries."
  },
  {
   "property": "C07",
   "status": "partial",
   "theorems": [
    "Expression.Props.C07_full_statement_false",
    "Expression.Props.C07_change_updates_one_key_partial"
   ],
   "note": "Full statement refuted: EffectError when the key is absent and the callback answers Nothing; everything else proved."
  },
  {
   "property": "C08",
   "status": "proved",
   "theorems": [
    "Expression.Props.C08_filter",
    "Expression.Props.C08_partition",
    "Expression.Props.C08_filter_partition_lookup"
   ],
   "note": ""
  },
  {
   "property": "C09",
   "status": "proved",
   "theorems": [
    "Expression.Props.C09_traversals"
   ],
   "note": ""
  },
  {
   "property": "C10",
   "status": "partial",
   "theorems": [
    "Expression.Props.C10_full_statement_false",
    "Expression.Props.C10_not_symmetric",
    "Expression.Props.C10_equality_partial"
   ],
   "note": "Full statement refuted: a map equals every map of which it is an initial part; correct for equal sizes."
  },
  {
   "property": "C11",
   "status": "partial",
   "theorems": [
    "Expression.Props.C11_full_statement_false",
    "Expression.Props.C11_hash_partial"
   ],
   "note": "Full statement refuted through C10; maps with the same bindings hash alike."
  },
  {
   "property": "C12",
   "status": "proved",
   "theorems": [
    "Expression.Props.C12_last_binding_wins"
   ],
   "note": "With an unbounded stack; C95 treats the recursion limit."
  },
  {
   "property": "C13",
   "status": "partial",
   "theorems": [
    "Expression.Props.C13_full_statement_false",
    "Expression.Props.C13_pick_partial"
   ],
   "note": "try_pick proved; pick raises EffectError instead of KeyError (full statement refuted)."
  },
  {
   "property": "C14",
   "status": "proved",
   "theorems": [
    "Expression.Props.C14_map",
    "Expression.Props.C14_shape",
    "Expression.Props.C14_map_laws"
   ],
   "note": ""
  },
  {
   "property": "C15",
   "status": "proved",
   "theorems": [
    "Expression.Props.C15_take_append_skip",
    "Expression.Props.C15_take",
    "Expression.Props.C15_skip",
    "Expression.Props.C15_negative"
   ],
   "note": ""
  },
  {
   "property": "C16",
   "status": "partial",
   "theorems": [
    "Expression.Props.C16_full_statement_false",
    "Expression.Props.C16_take_last_partial",
    "Expression.Props.C16_skip_last_append_take_last",
    "Expression.Props.C16_at_zero"
   ],
   "note": "Full statement refuted at n = 0; proved for n > 0, and the two parts always make up the block."
  },
  {
   "property": "C17",
   "status": "proved",
   "theorems": [
    "Expression.Props.C17_sort_with",
    "Expression.Props.C17_sort",
    "Expression.Props.C17_ascending",
    "Expression.Props.C17_unique"
   ],
   "note": "Python sorted is modelled by a stable insertion sort; the stable sort of a list is proved unique."
  },
  {
   "property": "C18",
   "status": "proved",
   "theorems": [
    "Expression.Props.C18_map",
    "Expression.Props.C18_starmap",
    "Expression.Props.C18_filter",
    "Expression.Props.C18_choose",
    "Expression.Props.C18_collect",
    "Expression.Props.C18_partition",
    "Expression.Props.C18_partition_filter",
    "Expression.Props.C18_partition_sizes",
    "Expression.Props.C18_mapi",
    "Expression.Props.C18_zip",
    "Expression.Props.C18_fold",
    "Expression.Props.C18_reduce",
    "Expression.Props.C18_sum_by",
    "Expression.Props.C18_forall",
    "Expression.Props.C18_append_assoc",
    "Expression.Props.C18_append_empty",
    "Expression.Props.C18_concat",
    "Expression.Props.C18_cons_head_tail",
    "Expression.Props.C18_empty",
    "Expression.Props.C18_item"
   ],
   "note": "Effects, call order and exceptions included."
  },
  {
   "property": "C19",
   "status": "partial",
   "theorems": [
    "Expression.Props.C19_full_statement_false",
    "Expression.Props.C19_indexed_partial",
    "Expression.Props.C19_start_ignored"
   ],
   "note": "Full statement refuted: start is ignored; proved for start = 0."
  },
  {
   "property": "C20",
   "status": "proved",
   "theorems": [
    "Expression.Props.C20_left_identity",
    "Expression.Props.C20_right_identity",
    "Expression.Props.C20_assoc",
    "Expression.Props.C20_assoc_effects_differ",
    "Expression.Props.C20_map_choose"
   ],
   "note": ""
  },
  {
   "property": "C21",
   "status": "proved",
   "theorems": [
    "Expression.Props.C21_unfold_returns",
    "Expression.Props.C21_unfold_raises",
    "Expression.Props.C21_unfold_diverges",
    "Expression.Props.C21_block_unfold_is_seq_unfold"
   ],
   "note": "Returning, raising and diverging cases all characterised."
  },
  {
   "property": "C22",
   "status": "proved",
   "theorems": [
    "Expression.Props.C22_map",
    "Expression.Props.C22_filter",
    "Expression.Props.C22_choose",
    "Expression.Props.C22_collect",
    "Expression.Props.C22_scan",
    "Expression.Props.C22_skip",
    "Expression.Props.C22_take",
    "Expression.Props.C22_take_none",
    "Expression.Props.C22_zip",
    "Expression.Props.C22_pairwise",
    "Expression.Props.C22_delay",
    "Expression.Props.C22_take_pulls",
    "Expression.Props.C22_concat",
    "Expression.Props.C22_init_infinite"
   ],
   "note": "A for loop over a pipeline equals the loop over its source, effects, breaks, exceptions and divergence included."
  },
  {
   "property": "C23",
   "status": "proved",
   "theorems": [
    "Expression.Props.C23_head",
    "Expression.Props.C23_try_find_index",
    "Expression.Props.C23_try_pick"
   ],
   "note": "Exact characterisation of every way a search can end."
  },
  {
   "property": "C24",
   "status": "partial",
   "theorems": [
    "Expression.Props.C24_oneshot_second_empty",
    "Expression.Props.C24_full_statement_false",
    "Expression.Props.C24_reiterable_partial",
    "Expression.Props.C24_same_elements_partial"
   ],
   "note": "Full statement refuted: filter, scan, zip and unfold return one-shot iterators; the others are closed under re-iterability."
  },
  {
   "property": "C25",
   "status": "proved",
   "theorems": [
    "Expression.Props.C25_scan_states",
    "Expression.Props.C25_scan_last",
    "Expression.Props.C25_scan_length",
    "Expression.Props.C25_folds",
    "Expression.Props.C25_fold_back_reversed"
   ],
   "note": ""
  },
  {
   "property": "C26",
   "status": "proved",
   "theorems": [
    "Expression.Props.C26_monad_laws",
    "Expression.Props.C26_functor_laws",
    "Expression.Props.C26_nothing",
    "Expression.Props.C26_some"
   ],
   "note": "Callbacks in PyD: effects, exceptions and divergence included."
  },
  {
   "property": "C27",
   "status": "proved",
   "theorems": [
    "Expression.Props.C27_monad_laws",
    "Expression.Props.C27_functor_laws",
    "Expression.Props.C27_error",
    "Expression.Props.C27_filter",
    "Expression.Props.C27_first_error",
    "Expression.Props.C27_swap"
   ],
   "note": ""
  },
  {
   "property": "C28",
   "status": "proved",
   "theorems": [
    "Expression.Props.C28_option_result",
    "Expression.Props.C28_reading",
    "Expression.Props.C28_reading_result",
    "Expression.Props.C28_optional_round_trip",
    "Expression.Props.C28_some_none_lost"
   ],
   "note": ""
  },
  {
   "property": "C29",
   "status": "proved",
   "theorems": [
    "Expression.Props.C29_present",
    "Expression.Props.C29_missing",
    "Expression.Props.C29_or_else_chain"
   ],
   "note": "Laziness is equality of computations: a fallback that is not mentioned on the right is not run."
  },
  {
   "property": "C30",
   "status": "proved",
   "theorems": [
    "Expression.Props.C30_construction",
    "Expression.Props.C30_type_error",
    "Expression.Props.C30_reading"
   ],
   "note": "Reserved names (self, tag, _index, __dataclass_fields__) excluded where needed; dataclass field collection not modelled."
  },
  {
   "property": "C31",
   "status": "partial",
   "theorems": [
    "Expression.Props.C31_eq_iff",
    "Expression.Props.C31_equivalence",
    "Expression.Props.C31_full_statement_hash_false",
    "Expression.Props.C31_hash_partial",
    "Expression.Props.C31_order",
    "Expression.Props.C31_trichotomy",
    "Expression.Props.C31_transitive"
   ],
   "note": "Equality, order and frozen hashes proved; equal values of unions that are not frozen hash by identity (refuted)."
  },
  {
   "property": "C32",
   "status": "proved",
   "theorems": [
    "Expression.Props.C32_copy",
    "Expression.Props.C32_deepcopy",
    "Expression.Props.C32_pickle"
   ],
   "note": "deepcopy/pickle of payloads is an arbitrary function that preserves equality and strings."
  },
  {
   "property": "C33",
   "status": "partial",
   "theorems": [
    "Expression.Props.C33_any_body",
    "Expression.Props.C33_full_statement_false",
    "Expression.Props.C33_block_partial",
    "Expression.Props.C33_block_is_bind"
   ],
   "note": "Every generator body characterised; full statement refuted for bodies that return None after a yield (they give the last value bound); otherwise proved."
  },
  {
   "property": "C34",
   "status": "partial",
   "theorems": [
    "Expression.Props.C34_any_body",
    "Expression.Props.C34_full_statement_false",
    "Expression.Props.C34_block_partial",
    "Expression.Props.C34_block_is_bind",
    "Expression.Props.C34_plain_body"
   ],
   "note": "As C33, for results."
  },
  {
   "property": "C35",
   "status": "proved",
   "theorems": [
    "Expression.Props.C35_any_body",
    "Expression.Props.C35_collects"
   ],
   "note": "Every generator body, including those that raise EffectError."
  },
  {
   "property": "C36",
   "status": "partial",
   "theorems": [
    "Expression.Props.C36_full_statement_false",
    "Expression.Props.C36_any_body",
    "Expression.Props.C36_async_option_partial",
    "Expression.Props.C36_async_result_partial",
    "Expression.Props.C36_coroutine_option_partial",
    "Expression.Props.C36_coroutine_result_partial"
   ],
   "note": "Asynchronous generators proved; full statement refuted for coroutines without yield, where EffectError escapes."
  },
  {
   "property": "C37",
   "status": "proved",
   "theorems": [
    "Expression.Props.C37_positions"
   ],
   "note": ""
  },
  {
   "property": "C38",
   "status": "proved",
   "theorems": [
    "Expression.Props.C38_round_trip",
    "Expression.Props.C38_call",
    "Expression.Props.C38_value",
    "Expression.Props.C38_refuses"
   ],
   "note": "Python int() is modelled for strings of ASCII digits only; the 4300-digit limit is left out."
  },
  {
   "property": "C39",
   "status": "proved",
   "theorems": [
    "Expression.Props.C39_accepts",
    "Expression.Props.C39_refuses",
    "Expression.Props.C39_message",
    "Expression.Props.C39_message_end"
   ],
   "note": ""
  },
  {
   "property": "C40",
   "status": "proved",
   "theorems": [
    "Expression.Props.C40_or_else",
    "Expression.Props.C40_choice_success",
    "Expression.Props.C40_choice_failure",
    "Expression.Props.C40_choice_made",
    "Expression.Props.C40_any_of"
   ],
   "note": ""
  },
  {
   "property": "C41",
   "status": "proved",
   "theorems": [
    "Expression.Props.C41_many",
    "Expression.Props.C41_never_fails",
    "Expression.Props.C41_raises",
    "Expression.Props.C41_many1",
    "Expression.Props.C41_ends",
    "Expression.Props.C41_whitespace",
    "Expression.Props.C41_endless"
   ],
   "note": "With an unbounded stack; C63 treats the recursion limit."
  },
  {
   "property": "C42",
   "status": "proved",
   "theorems": [
    "Expression.Props.C42_sep_by1",
    "Expression.Props.C42_sep_by1_fails",
    "Expression.Props.C42_sep_by"
   ],
   "note": ""
  },
  {
   "property": "C43",
   "status": "partial",
   "theorems": [
    "Expression.Props.C43_full_statement_false",
    "Expression.Props.C43_traverse_partial",
    "Expression.Props.C43_pure",
    "Expression.Props.C43_result",
    "Expression.Props.C43_all_ok",
    "Expression.Props.C43_first_error",
    "Expression.Props.C43_sequence",
    "Expression.Props.C43_traverse_sequence"
   ],
   "note": "Full statement refuted: the code folds from the right, so the function is called on every element, the last one first. Proved: the result is the claimed one, and exactly which calls are made. Functions that raise EffectError or StopIteration themselves are in C150."
  },
  {
   "property": "C44",
   "status": "proved",
   "theorems": [
    "Expression.Props.C44_result",
    "Expression.Props.C44_option",
    "Expression.Props.C44_empty",
    "Expression.Props.C44_result_stops",
    "Expression.Props.C44_option_stops",
    "Expression.Props.C44_append",
    "Expression.Props.C44_append_option"
   ],
   "note": ""
  },
  {
   "property": "C45",
   "status": "proved",
   "theorems": [
    "Expression.Props.C45_caught",
    "Expression.Props.C45_propagates",
    "Expression.Props.C45_plain",
    "Expression.Props.C45_result",
    "Expression.Props.C45_diverges",
    "Expression.Props.C45_none_escapes",
    "Expression.Props.C45_nested"
   ],
   "note": "The exception hierarchy is a predicate on exceptions."
  },
  {
   "property": "C46",
   "status": "proved",
   "theorems": [
    "Expression.Props.C46_empty",
    "Expression.Props.C46_singleton",
    "Expression.Props.C46_cons",
    "Expression.Props.C46_append",
    "Expression.Props.C46_flatten",
    "Expression.Props.C46_pipe",
    "Expression.Props.C46_pure",
    "Expression.Props.C46_each_once",
    "Expression.Props.C46_first_exception",
    "Expression.Props.C46_pipe2",
    "Expression.Props.C46_pipe3",
    "Expression.Props.C46_no_functions",
    "Expression.Props.C46_starpipe",
    "Expression.Props.C46_starcompose",
    "Expression.Props.C46_flip",
    "Expression.Props.C46_flip_flip"
   ],
   "note": "starcompose is typed for unpacked arguments, but the function it returns takes one tuple."
  },
  {
   "property": "C47",
   "status": "partial",
   "theorems": [
    "Expression.Props.C47_full_statement_false",
    "Expression.Props.C47_curry_partial",
    "Expression.Props.C47_any_split",
    "Expression.Props.C47_early",
    "Expression.Props.C47_surplus",
    "Expression.Props.C47_reuse",
    "Expression.Props.C47_negative",
    "Expression.Props.C47_curry_flip",
    "Expression.Props.C47_curry_flip_zero",
    "Expression.Props.C47_curry_flip_keywords",
    "Expression.Props.C47_pipeable"
   ],
   "note": "Full statement refuted: keyword arguments of all stages but the last are dropped. Proved: everything else, including curry_flip and pipeable."
  },
  {
   "property": "C48",
   "status": "proved",
   "theorems": [
    "Expression.Props.C48_ordinary",
    "Expression.Props.C48_ends",
    "Expression.Props.C48_diverges",
    "Expression.Props.C48_constant_stack"
   ],
   "note": "tailrec_async is the same loop with await and is covered by the same model."
  },
  {
   "property": "C49",
   "status": "proved",
   "theorems": [
    "Expression.Props.C49_at_most_once",
    "Expression.Props.C49_exactly_once",
    "Expression.Props.C49_not_before",
    "Expression.Props.C49_enter_raises",
    "Expression.Props.C49_no_deadlock",
    "Expression.Props.C49_bounded",
    "Expression.Props.C49_async",
    "Expression.Props.C49_returns",
    "Expression.Props.C49_async_returns"
   ],
   "note": "Every interleaving of any number of threads, atomic lock, read and write actions, sequential consistency. A dispose that loses the race may return before the action has run on the other thread. The asynchronous version is modelled with its code between awaits uninterrupted."
  },
  {
   "property": "C50",
   "status": "proved",
   "theorems": [
    "Expression.Props.C50_ends",
    "Expression.Props.C50_called",
    "Expression.Props.C50_called_at_most",
    "Expression.Props.C50_moments",
    "Expression.Props.C50_distinct",
    "Expression.Props.C50_cancel_silent",
    "Expression.Props.C50_cancel_base",
    "Expression.Props.C50_token",
    "Expression.Props.C50_token_none"
   ],
   "note": "A listener disposed by an earlier listener during the cancel is still called, as the code takes a snapshot. A listener raising a BaseException that is no Exception stops the rest (C50_called_at_most)."
  },
  {
   "property": "C51",
   "status": "partial",
   "theorems": [
    "Expression.Props.C51_full_statement_false",
    "Expression.Props.C51_at_most_once_partial",
    "Expression.Props.C51_open_partial",
    "Expression.Props.C51_called_partial",
    "Expression.Props.C51_called_only_partial",
    "Expression.Props.C51_unregistered_partial",
    "Expression.Props.C51_refused_partial",
    "Expression.Props.C51_no_deadlock_partial"
   ],
   "note": "Full statement refuted: a register that passed its test before the cancel and stores its listener after it is lost. Proved: at most once, in order, exactly once for registrations that returned before any cancel, never for those unregistered before, no registration succeeds after, no deadlock."
  },
  {
   "property": "C52",
   "status": "proved",
   "theorems": [
    "Expression.Props.C52_in_order",
    "Expression.Props.C52_futures"
   ],
   "note": "Every interleaving of any number of posting threads with the event loop, one attribute access, queue or lock operation at a time; asks are made on the event loop (C54 treats other threads) and no awaiter gives up (C65)."
  },
  {
   "property": "C53",
   "status": "proved",
   "theorems": [
    "Expression.Props.C53_wake_up",
    "Expression.Props.C53_quiescent",
    "Expression.Props.C53_no_deadlock",
    "Expression.Props.C53_bounded"
   ],
   "note": "Wake-up and quiescence when asks are made on the event loop; absence of deadlock and the bound on the moves of a call for all schedules."
  },
  {
   "property": "C54",
   "status": "partial",
   "theorems": [
    "Expression.Props.C54_full_statement_false",
    "Expression.Props.C54_in_order_partial",
    "Expression.Props.C54_losses_partial",
    "Expression.Props.C54_two_lost_one_stuck"
   ],
   "note": "Full statement refuted: two threads both pass the test of the continuation, and the second one takes a message it can give to nobody. Proved: order, no duplicates, the exact account of every message, and that at most two messages are lost per such call (plus one per receive given up); C54_two_lost_one_stuck shows that one call can lose two messages and leave a receive waiting for ever, though messages are queued."
  },
  {
   "property": "C55",
   "status": "partial",
   "theorems": [
    "Expression.Props.C55_full_statement_false",
    "Expression.Props.C55_last_early_reply_wins",
    "Expression.Props.C55_at_most_once_partial",
    "Expression.Props.C55_future_partial",
    "Expression.Props.C55_completes_partial",
    "Expression.Props.C55_single_reply_partial",
    "Expression.Props.C55_first_reply_partial",
    "Expression.Props.C55_sequential_partial"
   ],
   "note": "Full statement refuted: a reply None never arrives (and of two replies before the waiting the last one wins). Proved: at most one outcome and a sent one; one always arrives when none is None; exactly the first one when the asker waits first; the exact outcome on one thread."
  },
  {
   "property": "C56",
   "status": "partial",
   "theorems": [
    "Expression.Props.C56_full_statement_false",
    "Expression.Props.C56_byte_value_error",
    "Expression.Props.C56_stored_partial",
    "Expression.Props.C56_refused_partial",
    "Expression.Props.C56_enforced_declared",
    "Expression.Props.C56_inferred_partial",
    "Expression.Props.C56_any",
    "Expression.Props.C56_floats",
    "Expression.Props.C56_floats_convert",
    "Expression.Props.C56_bytes",
    "Expression.Props.C56_equality"
   ],
   "note": "Full statement refuted: int32 and uint32 arrays have the size of a C long, so on Linux and macOS they accept 64-bit values; bytes raise ValueError instead of OverflowError. Proved: the exact range enforced for every type code, and which type is inferred. Of floats only what storing does to them is known (rounding is a parameter)."
  },
  {
   "property": "C57",
   "status": "proved",
   "theorems": [
    "Expression.Props.C57_elements",
    "Expression.Props.C57_append",
    "Expression.Props.C57_take_concat",
    "Expression.Props.C57_folds",
    "Expression.Props.C57_fold_elements",
    "Expression.Props.C57_max_min",
    "Expression.Props.C57_head",
    "Expression.Props.C57_lazy",
    "Expression.Props.C57_take",
    "Expression.Props.C57_scan",
    "Expression.Props.C57_append_lazy"
   ],
   "note": "Callbacks are ordinary functions, as in the code. Closing a generator that was left early is not modelled."
  },
  {
   "property": "C58",
   "status": "partial",
   "theorems": [
    "Expression.Props.C58_full_statement_false",
    "Expression.Props.C58_take_pulls_partial",
    "Expression.Props.C58_take_zero"
   ],
   "note": "Full statement refuted: the count is tested after the next element was fetched. Proved: at most n + 1 requests, exactly one more than delivered."
  },
  {
   "property": "C59",
   "status": "partial",
   "theorems": [
    "Expression.Props.C59_full_statement_false",
    "Expression.Props.C59_collect_method_partial",
    "Expression.Props.C59_eager_partial"
   ],
   "note": "Full statement refuted: the method unpacks its whole source. Proved: exactly what it does instead, for every source, callback and consumer; and that the two agree on finite collections with callbacks without effects."
  },
  {
   "property": "C60",
   "status": "proved",
   "theorems": [
    "Expression.Props.C60_frozen",
    "Expression.Props.C60_assignment_raises"
   ],
   "note": "Attribute operations through setattr/delattr; object.__setattr__ bypasses it, as it does in Python."
  },
  {
   "property": "C61",
   "status": "proved",
   "theorems": [
    "Expression.Props.C61_monad",
    "Expression.Props.C61_alternative",
    "Expression.Props.C61_map",
    "Expression.Props.C61_sequence",
    "Expression.Props.C61_opt",
    "Expression.Props.C61_between",
    "Expression.Props.C61_ignore",
    "Expression.Props.C61_ignore_value",
    "Expression.Props.C61_lift2",
    "Expression.Props.C61_starmap"
   ],
   "note": ""
  },
  {
   "property": "C62",
   "status": "proved",
   "theorems": [
    "Expression.Props.C62_fraction",
    "Expression.Props.C62_whole"
   ],
   "note": "float() itself is a parameter."
  },
  {
   "property": "C63",
   "status": "partial",
   "theorems": [
    "Expression.Props.C63_full_statement_false",
    "Expression.Props.C63_depth_partial"
   ],
   "note": "Full statement refuted: parse_zero_or_more recurses once per element. Proved: exactly how deep a stack is needed."
  },
  {
   "property": "C64",
   "status": "partial",
   "theorems": [
    "Expression.Props.C64_full_statement_false",
    "Expression.Props.C64_in_order_partial",
    "Expression.Props.C64_exception_partial"
   ],
   "note": "Full statement refuted: a part that raises keeps the later ones from being disposed. Proved: what happens then, and the claim when no part raises."
  },
  {
   "property": "C65",
   "status": "partial",
   "theorems": [
    "Expression.Props.C65_full_statement_false",
    "Expression.Props.C65_next_receive_raises",
    "Expression.Props.C65_at_most_one_each_partial"
   ],
   "note": "Full statement refuted: the stale continuation swallows the next message, and a receive before that raises. Proved: at most one message is lost for each receive given up."
  },
  {
   "property": "C66",
   "status": "proved",
   "theorems": [
    "Expression.Props.C66_no_delivery",
    "Expression.Props.C66_receive_ends"
   ],
   "note": "The receive ends only when another message is posted; that MailboxProcessor.start also cancels the task of the body is not part of this model."
  },
  {
   "property": "C67",
   "status": "proved",
   "theorems": [
    "Expression.Props.C67_stores",
    "Expression.Props.C67_insert",
    "Expression.Props.C67_set_item",
    "Expression.Props.C67_del_item",
    "Expression.Props.C67_get_item",
    "Expression.Props.C67_append",
    "Expression.Props.C67_pop",
    "Expression.Props.C67_pop_last",
    "Expression.Props.C67_append_pop",
    "Expression.Props.C67_extend",
    "Expression.Props.C67_always_in_range",
    "Expression.Props.C67_reverse",
    "Expression.Props.C67_index",
    "Expression.Props.C67_remove"
   ],
   "note": "Assigning to slices is C105."
  },
  {
   "property": "C68",
   "status": "partial",
   "theorems": [
    "Expression.Props.C68_full_statement_false",
    "Expression.Props.C68_shared_bytearray",
    "Expression.Props.C68_owned_partial"
   ],
   "note": "Full statement refuted: a byte array built from a bytearray shares it. Proved: in all other cases the storage is new and nothing else changes."
  },
  {
   "property": "C69",
   "status": "partial",
   "theorems": [
    "Expression.Props.C69_full_statement_false",
    "Expression.Props.C69_map",
    "Expression.Props.C69_collect",
    "Expression.Props.C69_map_partial",
    "Expression.Props.C69_map_raises",
    "Expression.Props.C69_collect_partial",
    "Expression.Props.C69_choose_partial",
    "Expression.Props.C69_filter",
    "Expression.Props.C69_fold",
    "Expression.Props.C69_head",
    "Expression.Props.C69_of_seq_partial",
    "Expression.Props.C69_is_empty",
    "Expression.Props.C69_tail_partial",
    "Expression.Props.C69_sort_with_partial",
    "Expression.Props.C69_sort_partial",
    "Expression.Props.C69_sort_ascending_partial",
    "Expression.Props.C69_filter_any"
   ],
   "note": "Full statement refuted: map infers the element type of the result from the first result and can raise OverflowError. Proved: the exact calls made, and the claim when the first result is a plain int or an object."
  },
  {
   "property": "C70",
   "status": "partial",
   "theorems": [
    "Expression.Props.C70_full_statement_false",
    "Expression.Props.C70_skip_raises",
    "Expression.Props.C70_take_skip_partial",
    "Expression.Props.C70_last_partial",
    "Expression.Props.C70_typed_unsized"
   ],
   "note": "Full statement refuted: take_last(0) is the whole array and skip_last(0) is empty; also skip can raise OverflowError on an untyped array whose first remaining element is a sized integer. Proved: the claim for n > 0 and arrays of plain values."
  },
  {
   "property": "C71",
   "status": "partial",
   "theorems": [
    "Expression.Props.C71_full_statement_false",
    "Expression.Props.C71_indexed_partial"
   ],
   "note": "Full statement refuted: start is ignored. Proved: the indices count from 0."
  },
  {
   "property": "C72",
   "status": "partial",
   "theorems": [
    "Expression.Props.C72_full_statement_false",
    "Expression.Props.C72_slices_partial",
    "Expression.Props.C72_filter_partial",
    "Expression.Props.C72_tail_sort_partial"
   ],
   "note": "Full statement refuted: slices of a typed array are untyped. Proved: filter keeps the type, and which type slices, tail and sort give."
  },
  {
   "property": "C73",
   "status": "partial",
   "theorems": [
    "Expression.Props.C73_full_statement_false",
    "Expression.Props.C73_sources_partial"
   ],
   "note": "Full statement refuted: repeat without times delivers nothing. Proved: everything else."
  },
  {
   "property": "C74",
   "status": "partial",
   "theorems": [
    "Expression.Props.C74_second_empty",
    "Expression.Props.C74_full_statement_false",
    "Expression.Props.C74_reiterable_partial"
   ],
   "note": "Full statement refuted: the operations return generator objects, which can be run once. Proved: AsyncSeq over a re-iterable collection is re-iterable."
  },
  {
   "property": "C75",
   "status": "proved",
   "theorems": [
    "Expression.Props.C75_contains",
    "Expression.Props.C75_eq",
    "Expression.Props.C75_eq_equivalence",
    "Expression.Props.C75_eq_members",
    "Expression.Props.C75_append_members"
   ],
   "note": ""
  },
  {
   "property": "C76",
   "status": "proved",
   "theorems": [
    "Expression.Props.C76_range",
    "Expression.Props.C76_range_unique",
    "Expression.Props.C76_constructors",
    "Expression.Props.C76_sum"
   ],
   "note": ""
  },
  {
   "property": "C77",
   "status": "proved",
   "theorems": [
    "Expression.Props.C77_max_min",
    "Expression.Props.C77_max_min_source",
    "Expression.Props.C77_max_by",
    "Expression.Props.C77_sum",
    "Expression.Props.C77_length",
    "Expression.Props.C77_iter",
    "Expression.Props.C77_mapi",
    "Expression.Props.C77_append",
    "Expression.Props.C77_tail",
    "Expression.Props.C77_starmap",
    "Expression.Props.C77_range",
    "Expression.Props.C77_singleton"
   ],
   "note": ""
  },
  {
   "property": "C78",
   "status": "proved",
   "theorems": [
    "Expression.Props.C78_repr",
    "Expression.Props.C78_repr_pulls",
    "Expression.Props.C78_repr_ends"
   ],
   "note": ""
  },
  {
   "property": "C79",
   "status": "partial",
   "theorems": [
    "Expression.Props.C79_full_statement_false",
    "Expression.Props.C79_dict_plain_partial",
    "Expression.Props.C79_dict_shape_partial"
   ],
   "note": "Full statement refuted: dict() does not look into plain lists and dictionaries. Proved for every nesting of Some, Nothing, Ok, Error and blocks."
  },
  {
   "property": "C80",
   "status": "partial",
   "theorems": [
    "Expression.Props.C80_full_statement_false",
    "Expression.Props.C80_round_trip_partial",
    "Expression.Props.C80_dict_injective_partial",
    "Expression.Props.C80_exactly_partial",
    "Expression.Props.C80_exactly_when_partial"
   ],
   "note": "Full statement refuted: Some(Nothing) dumps as None. Proved: exactly what comes back for every annotation (every Some(Nothing) is replaced by Nothing), so the value comes back exactly when it has no Some(Nothing) in it, always so without Option directly below Option. Pydantic itself is trusted: the model states what its core schemas do."
  },
  {
   "property": "C81",
   "status": "partial",
   "theorems": [
    "Expression.Props.C81_result_never_loads",
    "Expression.Props.C81_block_in_option_is_list",
    "Expression.Props.C81_full_statement_false",
    "Expression.Props.C81_round_trip_partial",
    "Expression.Props.C81_exactly_partial"
   ],
   "note": "Full statement refuted: no JSON loads as a Result; JSON below an Option stays raw data. Proved: exactly what is loaded for every annotation with no Result outside an Option; and the claim for types dumped as they are, options of these, and blocks of those to any depth."
  },
  {
   "property": "C82",
   "status": "partial",
   "theorems": [
    "Expression.Props.C82_full_statement_false",
    "Expression.Props.C82_sound_partial",
    "Expression.Props.C82_instances_partial",
    "Expression.Props.C82_json_option_unchecked"
   ],
   "note": "Full statement refuted: instances pass whatever they hold. Proved for Python data in which the instances, if any, hold values of the annotated types."
  },
  {
   "property": "C83",
   "status": "proved",
   "theorems": [
    "Expression.Props.C83_first_call_decides",
    "Expression.Props.C83_callback_raises"
   ],
   "note": "asyncio.Future is modelled by its documented behaviour."
  },
  {
   "property": "C84",
   "status": "partial",
   "theorems": [
    "Expression.Props.C84_full_statement_false",
    "Expression.Props.C84_references_partial"
   ],
   "note": "Full statement refuted: failed and cancelled tasks are never released. Proved: unfinished ones are always kept, returned ones never, each once."
  },
  {
   "property": "C85",
   "status": "proved",
   "theorems": [
    "Expression.Props.C85_runs_alone",
    "Expression.Props.C85_cancelled_at_most_once",
    "Expression.Props.C85_other_sources",
    "Expression.Props.C85_without_token",
    "Expression.Props.C85_start_runs_nothing"
   ],
   "note": "asyncio is modelled by its documented behaviour: create_task only schedules; cancel() throws CancelledError at the next step. Any number of cancellation sources; CancellationToken.none() counts as a token of no source."
  },
  {
   "property": "C86",
   "status": "partial",
   "theorems": [
    "Expression.Props.C86_full_statement_false",
    "Expression.Props.C86_none_token",
    "Expression.Props.C86_start_raises_partial",
    "Expression.Props.C86_immediate_statement_false",
    "Expression.Props.C86_run_synchronously"
   ],
   "note": "Both refuted with witnesses. Proved: when start raises and with what (a source cancelled before, or CancellationToken.none(), with which it always raises though the computation runs); run_synchronously."
  },
  {
   "property": "C87",
   "status": "partial",
   "theorems": [
    "Expression.Props.C87_full_statement_false",
    "Expression.Props.C87_kept_partial",
    "Expression.Props.C87_plain_class",
    "Expression.Props.C87_init",
    "Expression.Props.C87_operators",
    "Expression.Props.C87_subclass_first",
    "Expression.Props.C87_no_eq",
    "Expression.Props.C87_repr",
    "Expression.Props.C87_unhashable",
    "Expression.Props.C87_package"
   ],
   "note": "Full statement refuted with the package's own Option. Proved: exactly which methods are kept, that undecorated classes keep theirs, that a written __init__ is run last, which classes have values without a hash, and where the methods of Option, Result and Try come from."
  },
  {
   "property": "C88",
   "status": "partial",
   "theorems": [
    "Expression.Props.C88_never_partial",
    "Expression.Props.C88_full_statement_false",
    "Expression.Props.C88_plain_subclass",
    "Expression.Props.C88_try",
    "Expression.Props.C88_cases",
    "Expression.Props.C88_position",
    "Expression.Props.C88_try_class"
   ],
   "note": "Full statement refuted: no call of a decorated subclass of a union, without an __init__ of its own, ever succeeds. Proved: undecorated subclasses are called exactly as their base, inherited cases keep their positions, Success and Failure make values of Try. Single inheritance."
  },
  {
   "property": "C89",
   "status": "partial",
   "theorems": [
    "Expression.Props.C89_equality",
    "Expression.Props.C89_hash",
    "Expression.Props.C89_hash_of",
    "Expression.Props.C89_full_statement_false",
    "Expression.Props.C89_copy_partial",
    "Expression.Props.C89_try",
    "Expression.Props.C89_repr"
   ],
   "note": "Full statement refuted: copies are of the decorated class. Proved: equality (also for Success, Failure, Ok and Error as such), hashes, repr, and what the copy is. Payload equality is assumed symmetric."
  },
  {
   "property": "C90",
   "status": "partial",
   "theorems": [
    "Expression.Props.C90_full_statement_false",
    "Expression.Props.C90_block_text",
    "Expression.Props.C90_block_partial",
    "Expression.Props.C90_block_int",
    "Expression.Props.C90_map_text",
    "Expression.Props.C90_map_partial",
    "Expression.Props.C90_map_int"
   ],
   "note": "Full statement refuted with texts that contain a comma. Proved: the exact text, and that it tells collections apart when the texts of the elements contain no separator."
  },
  {
   "property": "C91",
   "status": "proved",
   "theorems": [
    "Expression.Props.C91_asdict",
    "Expression.Props.C91_round_trip"
   ],
   "note": ""
  },
  {
   "property": "C92",
   "status": "partial",
   "theorems": [
    "Expression.Props.C92_full_statement_false",
    "Expression.Props.C92_sum",
    "Expression.Props.C92_sum_int",
    "Expression.Props.C92_sum_by",
    "Expression.Props.C92_sum_by_partial",
    "Expression.Props.C92_unfold_partial",
    "Expression.Props.C92_unfold_ends",
    "Expression.Props.C92_text"
   ],
   "note": "Full statement refuted: sum_by makes a typed array of the results first, which can raise OverflowError. Proved: all the rest, and sum_by when the first result is of no sized class. str of an element is assumed to have no effects."
  },
  {
   "property": "C93",
   "status": "partial",
   "theorems": [
    "Expression.Props.C93_left_unit",
    "Expression.Props.C93_right_unit",
    "Expression.Props.C93_assoc",
    "Expression.Props.C93_assoc_seq_partial",
    "Expression.Props.C93_full_statement_false",
    "Expression.Props.C93_short_circuit",
    "Expression.Props.C93_combine",
    "Expression.Props.C93_return",
    "Expression.Props.C93_zero"
   ],
   "note": "Full statement (associativity for sequences with effects) refuted by a witness. Proved: everything else, and associativity for sequences when the first function has no effects."
  },
  {
   "property": "C94",
   "status": "proved",
   "theorems": [
    "Expression.Props.C94_block_slice",
    "Expression.Props.C94_unique",
    "Expression.Props.C94_zero_step",
    "Expression.Props.C94_array_slice",
    "Expression.Props.C94_array_delete",
    "Expression.Props.C94_block_take",
    "Expression.Props.C94_block_split",
    "Expression.Props.C94_block_reverse"
   ],
   "note": "Assigning to a slice is C105. The slice of a typed array is an object of the type of its storage, not a TypedArray."
  },
  {
   "property": "C95",
   "status": "partial",
   "theorems": [
    "Expression.Props.C95_depth_partial",
    "Expression.Props.C95_full_statement_false"
   ],
   "note": "Full statement refuted: mk_from_iterator recurses once per pair. Proved: exactly how deep a stack is needed (frames of add not counted)."
  },
  {
   "property": "C96",
   "status": "partial",
   "theorems": [
    "Expression.Props.C96_depth_partial",
    "Expression.Props.C96_full_statement_false"
   ],
   "note": "Full statement refuted: sequence recurses once per parser. Proved: exactly how deep a stack making the parser needs; the depth of running it is C106."
  },
  {
   "property": "C97",
   "status": "proved",
   "theorems": [
    "Expression.Props.C97_block",
    "Expression.Props.C97_once",
    "Expression.Props.C97_disposed_after",
    "Expression.Props.C97_composite"
   ],
   "note": "One thread; C49 has the threads. The action does not use the object itself here."
  },
  {
   "property": "C98",
   "status": "partial",
   "theorems": [
    "Expression.Props.C98_full_statement_false",
    "Expression.Props.C98_try_downcast_partial",
    "Expression.Props.C98_downcast"
   ],
   "note": "Full statement refuted for unions: get_origin gives types.UnionType, of which no value is an instance. Proved for classes and parameterised generics."
  },
  {
   "property": "C99",
   "status": "proved",
   "theorems": [
    "Expression.Props.C99_option",
    "Expression.Props.C99_result",
    "Expression.Props.C99_union",
    "Expression.Props.C99_union_inj"
   ],
   "note": ""
  },
  {
   "property": "C100",
   "status": "proved",
   "theorems": [
    "Expression.Props.C100_in_order",
    "Expression.Props.C100_no_error",
    "Expression.Props.C100_all_handled",
    "Expression.Props.C100_bounded"
   ],
   "note": "The mailbox of C52 put together with the task of the body. The body is a loop around receive whose handling is one atomic step of the event loop (it may await between messages); asks are made on the event loop (C54 treats other threads). The body does not end by itself and does not raise."
  },
  {
   "property": "C101",
   "status": "proved",
   "theorems": [
    "Expression.Props.C101_reply",
    "Expression.Props.C101_everyone",
    "Expression.Props.C101_posts"
   ],
   "note": "As C100; replies are sent while the message is handled, on the event loop. C55 treats replies from other threads."
  },
  {
   "property": "C102",
   "status": "partial",
   "theorems": [
    "Expression.Props.C102_full_statement_false",
    "Expression.Props.C102_ends_partial"
   ],
   "note": "Full statement refuted: nothing completes or cancels the futures of askers. Proved: nothing is handled any more, the state and all answers stay, the task ends as cancelled. cancel is called on the event loop (task.cancel is not thread safe); the body does not catch CancelledError."
  },
  {
   "property": "C103",
   "status": "proved",
   "theorems": [
    "Expression.Props.C103_add",
    "Expression.Props.C103_remove",
    "Expression.Props.C103_change",
    "Expression.Props.C103_lookup",
    "Expression.Props.C103_filter",
    "Expression.Props.C103_construction",
    "Expression.Props.C103_errors",
    "Expression.Props.C103_propagates",
    "Expression.Props.C103_depth",
    "Expression.Props.C103_comparisons",
    "Expression.Props.C103_comparisons_rebuilding",
    "Expression.Props.C103_plain"
   ],
   "note": "A second model of maptree.py and map.py in which comparisons are host code in an arbitrary world; proved equal to the first where comparisons are Boolean functions."
  },
  {
   "property": "C104",
   "status": "proved",
   "theorems": [
    "Expression.Props.C104_updates",
    "Expression.Props.C104_traversals",
    "Expression.Props.C104_rebuilding",
    "Expression.Props.C104_iteration",
    "Expression.Props.C104_depth",
    "Expression.Props.C104_no_recursion_error"
   ],
   "note": "Calls of the recursive functions and of the methods occupy a frame each; frames of rebalance, mk, height, is_empty and of constructors, a bounded number above the deepest call, are not counted. After removals the bound is the depth, which C06 treats."
  },
  {
   "property": "C105",
   "status": "partial",
   "theorems": [
    "Expression.Props.C105_full_statement_false",
    "Expression.Props.C105_empty_deletes",
    "Expression.Props.C105_int64",
    "Expression.Props.C105_list_partial",
    "Expression.Props.C105_same_storage_partial",
    "Expression.Props.C105_array_refuses",
    "Expression.Props.C105_not_iterable",
    "Expression.Props.C105_bytes_partial",
    "Expression.Props.C105_bytes_refuses",
    "Expression.Props.C105_read_back",
    "Expression.Props.C105_own",
    "Expression.Props.C105_unique",
    "Expression.Props.C105_always_in_range"
   ],
   "note": "Refuted in full: array.array storage refuses a TypedArray, arrays of the same type code may have different storage, and an empty array assigned to an extended slice deletes it. Proved for lists, for what slices of arrays with the same storage give, and for iterables of bytes."
  },
  {
   "property": "C106",
   "status": "partial",
   "theorems": [
    "Expression.Props.C106_same_or_overflow",
    "Expression.Props.C106_frames",
    "Expression.Props.C106_choice_partial",
    "Expression.Props.C106_anyOf_partial",
    "Expression.Props.C106_sequence_partial",
    "Expression.Props.C106_pstring_partial",
    "Expression.Props.C106_many_partial",
    "Expression.Props.C106_many1_partial",
    "Expression.Props.C106_no_stack",
    "Expression.Props.C106_full_statement_false"
   ],
   "note": "Refuted in full: no number of frames suffices for every any_of, pstring or many. Proved: the answer is the one of an unbounded stack or RecursionError, for every parser; the frames that suffice for every combinator, exactly for any_of, pstring and many. Two frames are counted per parser run inside another; frames of mappers and constructors, which return before, are not."
  },
  {
   "property": "C107",
   "status": "partial",
   "theorems": [
    "Expression.Props.C107_case",
    "Expression.Props.C107_constant",
    "Expression.Props.C107_other_class",
    "Expression.Props.C107_statement",
    "Expression.Props.C107_positional_partial",
    "Expression.Props.C107_option",
    "Expression.Props.C107_result",
    "Expression.Props.C107_tree",
    "Expression.Props.C107_twice",
    "Expression.Props.C107_full_statement_false"
   ],
   "note": "Full statement refuted: case Option(\"some\", x) does not match Some(3), because __match_args__ lists all cases and only the first declared one is in second place. Proved: all patterns by keyword, the statements the library itself uses, and exactly what patterns by position match."
  },
  {
   "property": "C108",
   "status": "partial",
   "theorems": [
    "Expression.Props.C108_block",
    "Expression.Props.C108_block_items",
    "Expression.Props.C108_block_star",
    "Expression.Props.C108_block_cons",
    "Expression.Props.C108_bare",
    "Expression.Props.C108_others_partial",
    "Expression.Props.C108_full_statement_false"
   ],
   "note": "Full statement refuted: Seq(x) never matches (there is no attribute iterable), TypedArray(x) never matches (no attribute initializer), Map(x) raises TypeError. Proved: everything about Block and about sequence patterns, and exactly what the others do."
  },
  {
   "property": "C109",
   "status": "proved",
   "theorems": [
    "Expression.Props.C109_get",
    "Expression.Props.C109_keys_values",
    "Expression.Props.C109_items",
    "Expression.Props.C109_items_contains",
    "Expression.Props.C109_unhashable",
    "Expression.Props.C109_dict",
    "Expression.Props.C109_pattern",
    "Expression.Props.C109_pattern_rest"
   ],
   "note": ""
  },
  {
   "property": "C110",
   "status": "partial",
   "theorems": [
    "Expression.Props.C110_in_order",
    "Expression.Props.C110_resumed",
    "Expression.Props.C110_begins",
    "Expression.Props.C110_full_statement_false",
    "Expression.Props.C110_prefix_partial",
    "Expression.Props.C110_lost_partial",
    "Expression.Props.C110_all_partial"
   ],
   "note": "Full statement refuted: a receive that timed out stays in place and takes the next message, which is lost. Proved: order and no repetition always; the first so many messages if no timeout passes; at most one lost message per timeout if nobody cancels. A receive that returns at once does so when the task is next resumed; something the body waits for other than messages may end at any time."
  },
  {
   "property": "C111",
   "status": "proved",
   "theorems": [
    "Expression.Props.C111_answer",
    "Expression.Props.C111_replies",
    "Expression.Props.C111_final"
   ],
   "note": "Replies on the event loop thread, by the body or by others there; replies from other threads are C55."
  },
  {
   "property": "C112",
   "status": "proved",
   "theorems": [
    "Expression.Props.C112_silent",
    "Expression.Props.C112_unanswered",
    "Expression.Props.C112_accepts",
    "Expression.Props.C112_left"
   ],
   "note": ""
  },
  {
   "property": "C113",
   "status": "proved",
   "theorems": [
    "Expression.Props.C113_no_message",
    "Expression.Props.C113_told",
    "Expression.Props.C113_never_begins",
    "Expression.Props.C113_receives_end",
    "Expression.Props.C113_ends"
   ],
   "note": "cancel is called on the event loop (task.cancel is not thread safe)."
  },
  {
   "property": "C114",
   "status": "partial",
   "theorems": [
    "Expression.Props.C114_full_statement_false",
    "Expression.Props.C114_shared",
    "Expression.Props.C114_alone_partial",
    "Expression.Props.C114_elements_partial",
    "Expression.Props.C114_combinators_partial"
   ],
   "note": "Full statement refuted for filter (scan, zip, unfold likewise). Proved for the others and all compositions, and what happens with one-shot objects instead: each element goes to exactly one iteration."
  },
  {
   "property": "C115",
   "status": "partial",
   "theorems": [
    "Expression.Props.C115_parts",
    "Expression.Props.C115_at_most_once",
    "Expression.Props.C115_full_statement_false",
    "Expression.Props.C115_returned_partial",
    "Expression.Props.C115_alone_partial",
    "Expression.Props.C115_failed_partial",
    "Expression.Props.C115_failures_bounded_partial",
    "Expression.Props.C115_cancelled_once"
   ],
   "note": "Full statement refuted: an overlapping second disposal returns while the action still runs in the first. Proved: at most once; all parts disposed on return, and returned unless another task has them; what a failed call leaves; failures are bounded by failing parts."
  },
  {
   "property": "C116",
   "status": "partial",
   "theorems": [
    "Expression.Props.C116_answers_partial",
    "Expression.Props.C116_call_partial",
    "Expression.Props.C116_pint_partial",
    "Expression.Props.C116_no_limit",
    "Expression.Props.C116_endless_partial",
    "Expression.Props.C116_full_statement_false",
    "Expression.Props.C116_repetition_false"
   ],
   "note": "Full statement refuted: pint raises ValueError on literals longer than the interpreter's limit on integer digits, and many of a parser that consumes nothing never ends. Proved for all parsers made by the combinators with neither."
  },
  {
   "property": "C117",
   "status": "proved",
   "theorems": [
    "Expression.Props.C117_alone",
    "Expression.Props.C117_in_order",
    "Expression.Props.C117_sends",
    "Expression.Props.C117_send_order",
    "Expression.Props.C117_all_received",
    "Expression.Props.C117_answer",
    "Expression.Props.C117_waits",
    "Expression.Props.C117_follows",
    "Expression.Props.C117_calls",
    "Expression.Props.C117_asks",
    "Expression.Props.C117_replies",
    "Expression.Props.C117_back"
   ],
   "note": "One event loop; the bodies are functions of what they have received, await answers without a timeout of their own, and do not cancel sources. Proved for all of them, over the model of one agent (C110 to C113 hold of each agent among others)."
  },
  {
   "property": "C118",
   "status": "partial",
   "theorems": [
    "Expression.Props.C118_full_statement_false",
    "Expression.Props.C118_handed_up",
    "Expression.Props.C118_answered_partial",
    "Expression.Props.C118_forever"
   ],
   "note": "Full statement refuted: two agents that ask each other wait for ever (and one whose question is handed back to it). Proved for ranked agents, and that circles never resolve by themselves."
  },
  {
   "property": "C119",
   "status": "partial",
   "theorems": [
    "Expression.Props.C119_full_statement_false",
    "Expression.Props.C119_linked_partial",
    "Expression.Props.C119_disposed_partial",
    "Expression.Props.C119_chain_partial",
    "Expression.Props.C119_only_partial",
    "Expression.Props.C119_alone_partial"
   ],
   "note": "Full statement refuted: a second cancel returns while the first is still calling listeners, so a linked source may not be cancelled yet. Proved when every cancel of the parent has returned; along chains when all calls are over; nothing else is cancelled. Listeners raising BaseException are left out (C50, C67 have them for one source)."
  },
  {
   "property": "C120",
   "status": "proved",
   "theorems": [
    "Expression.Props.C120_no_deadlock",
    "Expression.Props.C120_bounded",
    "Expression.Props.C120_returns"
   ],
   "note": "A step is one atomic action of the code; functions of users return whenever the schedule lets them. Listeners raising BaseException are left out."
  },
  {
   "property": "C121",
   "status": "proved",
   "theorems": [
    "Expression.Props.C121_reads",
    "Expression.Props.C121_refuses",
    "Expression.Props.C121_never_raises",
    "Expression.Props.C121_ends",
    "Expression.Props.C121_call",
    "Expression.Props.C121_unambiguous",
    "Expression.Props.C121_brackets"
   ],
   "note": "Parses (Spec/Grammar.lean) is the parsing expression grammar; Grammar.parser (Model/Grammar.lean) is the parser a user writes with the combinators, rules refer to each other through bind. Mappers are functions that return; the unbounded stack is C121, the bounded one C123."
  },
  {
   "property": "C122",
   "status": "proved",
   "theorems": [
    "Expression.Props.C122_answers",
    "Expression.Props.C122_left_recursion"
   ],
   "note": "WellFormed: no left recursion, seen from the form of the rules (MayStartWith), and only expressions that consume are repeated."
  },
  {
   "property": "C123",
   "status": "proved",
   "theorems": [
    "Expression.Props.C123_never_wrong",
    "Expression.Props.C123_enough",
    "Expression.Props.C123_left_recursion",
    "Expression.Props.C123_depth",
    "Expression.Props.C123_linear",
    "Expression.Props.C123_rule"
   ],
   "note": "Frames are counted as in C106. C123_rule is the equation that shows that the fuel in rulesDeep is no restriction. The constant of C123_linear is not computed: it is the height of the expression plus the sum of the frames of the rules. The finitely many rules are given by a list with all names in it."
  },
  {
   "property": "C124",
   "status": "proved",
   "theorems": [
    "Expression.Props.C124_block",
    "Expression.Props.C124_async",
    "Expression.Props.C124_cleanup",
    "Expression.Props.C124_cleanup_async",
    "Expression.Props.C124_exactly_once"
   ],
   "note": "Model/TryBody.lean is the generator with the statements it is inside of; Spec/TryBody.lean (block) runs the same body without a generator. Managers whose __exit__ swallows exceptions are try statements."
  },
  {
   "property": "C125",
   "status": "partial",
   "theorems": [
    "Expression.Props.C125_full_statement_false",
    "Expression.Props.C125_ends_partial"
   ],
   "note": "False: EffectError is an Exception, so `except Exception` (or a manager that suppresses it) around `yield from Nothing` catches it and the block goes on. Proved for bodies whose try statements let EffectError pass."
  },
  {
   "property": "C126",
   "status": "partial",
   "theorems": [
    "Expression.Props.C126_full_statement_false",
    "Expression.Props.C126_decides_partial",
    "Expression.Props.C126_no_result",
    "Expression.Props.C126_not_a_dictionary"
   ],
   "note": "False: 5, None, a list with the element \"ok\" or a string such as \"look\" as a Result[...] raise TypeError. Proved: exact acceptance and ValueError otherwise for annotations without Result, and with Result when the data has dictionaries there; what happens with other data is proved too."
  },
  {
   "property": "C127",
   "status": "proved",
   "theorems": [
    "Expression.Props.C127_updates",
    "Expression.Props.C127_logarithmic",
    "Expression.Props.C127_traversals",
    "Expression.Props.C127_iteration",
    "Expression.Props.C127_rebuilding"
   ],
   "note": "Calls of mk, rebalance, height, is_empty and constructors, of which there is a bounded number for each call counted, are not counted; logarithmic depth is stated for maps built by insertion and bulk operations (after remove the tree may be deeper, see C05)."
  },
  {
   "property": "C128",
   "status": "partial",
   "theorems": [
    "Expression.Props.C128_same",
    "Expression.Props.C128_counts",
    "Expression.Props.C128_polynomial_partial",
    "Expression.Props.C128_exponential",
    "Expression.Props.C128_full_statement_false",
    "Expression.Props.C128_quadratic",
    "Expression.Props.C128_linear_partial",
    "Expression.Props.C128_listed"
   ],
   "note": "Refuted in full by C128_full_statement_false (exponential time for a recursive grammar that answers on every text, C128_exponential). Proved: the bound for all expressions without rules (C128_polynomial_partial), that counting does not change answers (C128_same, C128_counts), and that nested repetitions may be quadratic (C128_quadratic); linear time for all finite LL(1) grammars without left recursion (C128_linear_partial), among them the same sums written with sep_by1 (C128_listed). Counted are runs of the parsers of the expressions and of the characters of strings; a combinator defined by others counts once."
  },
  {
   "property": "C129",
   "status": "proved",
   "theorems": [
    "Expression.Props.C129_nothing_changes",
    "Expression.Props.C129_old_maps_remain",
    "Expression.Props.C129_one_tree",
    "Expression.Props.C129_add",
    "Expression.Props.C129_remove",
    "Expression.Props.C129_change",
    "Expression.Props.C129_map",
    "Expression.Props.C129_filter",
    "Expression.Props.C129_partition",
    "Expression.Props.C129_tryFind",
    "Expression.Props.C129_logarithmic",
    "Expression.Props.C129_history"
   ],
   "note": "The nodes are objects in a heap in which others make nodes before each of our steps; that others never write is what C129_nothing_changes shows of the code. The fields of a node are read in one step."
  },
  {
   "property": "C130",
   "status": "proved",
   "theorems": [
    "Expression.Props.C130_loop",
    "Expression.Props.C130_collect"
   ],
   "note": "Loops with Iterable.forLoop over the iterator with its stack of references; Map.__iter__ drops the values."
  },
  {
   "property": "C131",
   "status": "partial",
   "theorems": [
    "Expression.Props.C131_full_statement_false",
    "Expression.Props.C131_pipe_partial",
    "Expression.Props.C131_one_parameter",
    "Expression.Props.C131_uncurried",
    "Expression.Props.C131_uncurried_piped",
    "Expression.Props.C131_map2",
    "Expression.Props.C131_fold_back",
    "Expression.Props.C131_array_indexed",
    "Expression.Props.C131_wrong_call",
    "Expression.Props.C131_seq",
    "Expression.Props.C131_seq_zip",
    "Expression.Props.C131_seq_zip_false"
   ],
   "note": "False as stated: map.fold_back takes the state last, so piping a map into it takes the map for the state (C131_full_statement_false; C131_fold_back says how it must be called); pipe(xs, seq.zip(ys)) pairs the other way round than xs.zip(ys) (C131_seq_zip, C131_seq_zip_false); option.or_else, to_result, to_result_with, default_arg and result.of_option, of_option_with are not curried and raise TypeError when piped into (C131_uncurried, C131_uncurried_piped); map2 takes two late arguments (C131_map2); array.indexed drops its argument (C131_array_indexed). C131_pipe_partial: all other functions, whatever the methods do and however the arguments are given. C131_one_parameter, C131_seq: the functions of one parameter and the methods of Seq. C131_wrong_call: too many arguments or unknown keywords raise and call nothing."
  },
  {
   "property": "C132",
   "status": "partial",
   "theorems": [
    "Expression.Props.C132_history",
    "Expression.Props.C132_cases",
    "Expression.Props.C132_loop_partial",
    "Expression.Props.C132_full_statement_false",
    "Expression.Props.C132_endless"
   ],
   "note": "C132_full_statement is refuted (StopIteration raised while an element is taken apart is swallowed and truncates the map). C132_history + C132_cases determine the outcome for every iterable and stack size; C132_loop_partial is the equivalence with the loop when unpacking does not raise StopIteration and the stack is large enough; C132_endless for endless sources."
  },
  {
   "property": "C133",
   "status": "partial",
   "theorems": [
    "Expression.Props.C133_full_statement_false",
    "Expression.Props.C133_history",
    "Expression.Props.C133_methods",
    "Expression.Props.C133_forall",
    "Expression.Props.C133_bounded",
    "Expression.Props.C133_endless",
    "Expression.Props.C133_fold_partial",
    "Expression.Props.C133_map_filter_partial",
    "Expression.Props.C133_sort_with",
    "Expression.Props.C133_extend",
    "Expression.Props.C133_extend_shared"
   ],
   "note": "C133_full_statement is refuted by a callback that deletes the first element. C133_history gives the outcome for every callback, from the visits so far; C133_methods and C133_forall for the other methods; C133_bounded and C133_endless say when it ends; C133_fold_partial and C133_map_filter_partial are the property for callbacks that leave what is ahead alone. C133_extend, C133_extend_shared: extend, which never ends for two arrays sharing a bytearray."
  },
  {
   "property": "C134",
   "status": "partial",
   "theorems": [
    "Expression.Props.C134_block",
    "Expression.Props.C134_full_statement_false",
    "Expression.Props.C134_block_more",
    "Expression.Props.C134_array",
    "Expression.Props.C134_forall",
    "Expression.Props.C134_seq_breaks",
    "Expression.Props.C134_seq_raises",
    "Expression.Props.C134_block_partial",
    "Expression.Props.C134_seq_partial",
    "Expression.Props.C134_unchanged_partial"
   ],
   "note": "C134_full_statement (for Block.map) is refuted. C134_block, C134_array, C134_forall and C134_seq_breaks/C134_seq_raises say exactly what comes out for every callback and position; C134_block_partial and C134_seq_partial are the property for callbacks that never raise StopIteration (equality with the model of the other properties); C134_unchanged_partial for seq.iter and Block.partition."
  },
  {
   "property": "C135",
   "status": "partial",
   "theorems": [
    "Expression.Props.C135_full_statement_false",
    "Expression.Props.C135_search",
    "Expression.Props.C135_reversed_partial",
    "Expression.Props.C135_reversed_step",
    "Expression.Props.C135_clear_iadd",
    "Expression.Props.C135_plain"
   ],
   "note": "C135_full_statement (loops over reversed) is refuted by a body that empties the array; C135_reversed_partial for bodies that leave alone what is before the current element, C135_reversed_step says what each step gives. in, count, index: C135_search and C135_plain; clear and +=: C135_clear_iadd."
  },
  {
   "property": "C136",
   "status": "partial",
   "theorems": [
    "Expression.Props.C136_full_statement_false",
    "Expression.Props.C136_shared",
    "Expression.Props.C136_operations",
    "Expression.Props.C136_list_operations",
    "Expression.Props.C136_alone",
    "Expression.Props.C136_told",
    "Expression.Props.C136_turned_away",
    "Expression.Props.C136_over",
    "Expression.Props.C136_alive_partial"
   ],
   "note": "full statement (a cancelled wait costs the others nothing) refuted by C136_full_statement_false; the rest is proved for every history, and that the sequence stays alive when nothing ends it"
  },
  {
   "property": "C137",
   "status": "partial",
   "theorems": [
    "Expression.Props.C137_full_statement_false",
    "Expression.Props.C137_is_partial",
    "Expression.Props.C137_copies",
    "Expression.Props.C137_equality"
   ],
   "note": "full statement refuted by C137_full_statement_false (copies, pickle, JSON, Option.Nothing()); proved for all programs without these"
  },
  {
   "property": "C138",
   "status": "partial",
   "theorems": [
    "Expression.Props.C138_result",
    "Expression.Props.C138_own_kind_partial",
    "Expression.Props.C138_library_calls",
    "Expression.Props.C138_payload",
    "Expression.Props.C138_plain",
    "Expression.Props.C138_full_statement_false"
   ],
   "note": "full statement refuted by C138_full_statement_false (a pick without a hit in a block of results); C138_result says for every body what is returned, C138_payload where the payload of an EffectError goes, whatever was yielded before; partial for bodies whose EffectErrors carry values of the own kind"
  },
  {
   "property": "C139",
   "status": "partial",
   "theorems": [
    "Expression.Props.C139_callbacks",
    "Expression.Props.C139_same_or_overflow",
    "Expression.Props.C139_frames",
    "Expression.Props.C139_frames_more",
    "Expression.Props.C139_needs_more",
    "Expression.Props.C139_needs",
    "Expression.Props.C139_effect_seq_partial",
    "Expression.Props.C139_no_stack",
    "Expression.Props.C139_full_statement_false"
   ],
   "note": "full statement refuted by C139_full_statement_false; C139_same_or_overflow, C139_frames, C139_frames_more, C139_needs, C139_needs_more and C139_callbacks for all sequences; C139_effect_seq_partial gives the exact number of frames for effect.seq"
  },
  {
   "property": "C140",
   "status": "partial",
   "theorems": [
    "Expression.Props.C140_effect_seq_partial",
    "Expression.Props.C140_full_statement_false"
   ],
   "note": "full statement refuted by C140_full_statement_false; C140_effect_seq_partial gives the exact number of resumptions"
  },
  {
   "property": "C141",
   "status": "partial",
   "theorems": [
    "Expression.Props.C141_compose",
    "Expression.Props.C141_result_pipeline",
    "Expression.Props.C141_option_pipeline",
    "Expression.Props.C141_constant_partial",
    "Expression.Props.C141_pipelines_partial",
    "Expression.Props.C141_full_statement_false"
   ],
   "note": "full statement refuted by C141_full_statement_false (pipelines); C141_constant_partial for everything else, C141_result_pipeline and C141_option_pipeline give the exact number of frames of pipelines"
  },
  {
   "property": "C142",
   "status": "partial",
   "theorems": [
    "Expression.Props.C142_cons",
    "Expression.Props.C142_quadratic_partial",
    "Expression.Props.C142_concat_singles",
    "Expression.Props.C142_traverse_ok",
    "Expression.Props.C142_many",
    "Expression.Props.C142_full_statement_false"
   ],
   "note": "full statement refuted by C142_full_statement_false; C142_quadratic_partial is the bound, the other theorems give exact counts"
  },
  {
   "property": "C143",
   "status": "partial",
   "theorems": [
    "Expression.Props.C143_same_calls_partial",
    "Expression.Props.C143_no_beginning_partial",
    "Expression.Props.C143_many1",
    "Expression.Props.C143_full_statement_false",
    "Expression.Props.C143_values",
    "Expression.Props.C143_runs",
    "Expression.Props.C143_derived",
    "Expression.Props.C143_choice",
    "Expression.Props.C143_any_of"
   ],
   "note": "full statement refuted by C143_full_statement_false (many and many1); C143_same_calls_partial is an equivalence, up to many1, for texts that can be told from what is around them; C143_values shows that this is needed"
  },
  {
   "property": "C144",
   "status": "partial",
   "theorems": [
    "Expression.Props.C144_written_out_partial",
    "Expression.Props.C144_exponential_partial",
    "Expression.Props.C144_exponential",
    "Expression.Props.C144_preturn",
    "Expression.Props.C144_full_statement_false"
   ],
   "note": "full statement refuted by C144_full_statement_false; C144_exponential_partial and C144_exponential give the bound and that it is reached, C144_written_out_partial the bound without sharing, C144_preturn what preturn does"
  },
  {
   "property": "C145",
   "status": "partial",
   "theorems": [
    "Expression.Props.C145_of_seq",
    "Expression.Props.C145_array_of_seq",
    "Expression.Props.C145_true_partial",
    "Expression.Props.C145_tuple_partial",
    "Expression.Props.C145_false",
    "Expression.Props.C145_false_array",
    "Expression.Props.C145_false_map",
    "Expression.Props.C145_test_raises",
    "Expression.Props.C145_full_statement_false"
   ],
   "note": "full statement refuted by C145_full_statement_false (an object that is false although it has elements); C145_of_seq and C145_array_of_seq hold without conditions, C145_true_partial for objects that are true, C145_false and C145_test_raises say what happens otherwise"
  },
  {
   "property": "C146",
   "status": "partial",
   "theorems": [
    "Expression.Props.C146_at_most_once",
    "Expression.Props.C146_no_deadlock",
    "Expression.Props.C146_enter_raises",
    "Expression.Props.C146_exactly_once_partial",
    "Expression.Props.C146_lost",
    "Expression.Props.C146_lost_run",
    "Expression.Props.C146_full_statement_false"
   ],
   "note": "full statement refuted by C146_full_statement_false and, for every continuation, C146_lost; C146_exactly_once_partial says exactly when it holds; C146_at_most_once, C146_no_deadlock and C146_enter_raises hold without conditions"
  },
  {
   "property": "C147",
   "status": "partial",
   "theorems": [
    "Expression.Props.C147_at_most_once",
    "Expression.Props.C147_no_key_error",
    "Expression.Props.C147_no_deadlock",
    "Expression.Props.C147_refused",
    "Expression.Props.C147_order",
    "Expression.Props.C147_called_partial",
    "Expression.Props.C147_removed_partial",
    "Expression.Props.C147_full_statement_false",
    "Expression.Props.C147_removal_lost",
    "Expression.Props.C147_leaked",
    "Expression.Props.C147_overwritten"
   ],
   "note": "full statement refuted by C147_full_statement_false and C147_removal_lost; C147_called_partial and C147_removed_partial say when the two parts hold; C147_at_most_once, C147_no_key_error, C147_no_deadlock, C147_refused and C147_order hold without conditions; C147_leaked and C147_overwritten: what becomes of a callback whose register was interrupted"
  },
  {
   "property": "C148",
   "status": "partial",
   "theorems": [
    "Expression.Props.C148_in_order",
    "Expression.Props.C148_full_statement_false",
    "Expression.Props.C148_left_over_partial",
    "Expression.Props.C148_last_post_partial",
    "Expression.Props.C148_next_post_partial",
    "Expression.Props.C148_losses",
    "Expression.Props.C148_no_deadlock"
   ],
   "note": "full statement refuted by C148_full_statement_false; C148_left_over_partial and C148_last_post_partial say which messages can be left over, C148_next_post_partial that the next post delivers them; C148_in_order, C148_losses and C148_no_deadlock hold for all interrupts"
  },
  {
   "property": "C149",
   "status": "partial",
   "theorems": [
    "Expression.Props.C149_message",
    "Expression.Props.C149_call",
    "Expression.Props.C149_one_complaint",
    "Expression.Props.C149_full_statement_false",
    "Expression.Props.C149_true_partial",
    "Expression.Props.C149_straight_partial",
    "Expression.Props.C149_last_alternative",
    "Expression.Props.C149_any_of"
   ],
   "note": "full statement refuted by C149_full_statement_false; C149_message and C149_call say exactly what the error is; C149_true_partial: it is always true; C149_straight_partial: it is the farthest without alternatives, optional and repeated parts; C149_last_alternative and C149_any_of: what is lost. fail(x) is modelled with one fixed text"
  },
  {
   "property": "C150",
   "status": "partial",
   "theorems": [
    "Expression.Props.C150_traverse",
    "Expression.Props.C150_full_statement_false",
    "Expression.Props.C150_returned",
    "Expression.Props.C150_result_partial",
    "Expression.Props.C150_raises",
    "Expression.Props.C150_no_effect_error",
    "Expression.Props.C150_sequence",
    "Expression.Props.C150_agrees"
   ],
   "note": "full statement refuted by C150_full_statement_false; C150_traverse says exactly what happens for every function, C150_returned what is returned, C150_result_partial when that is a Result; C150_raises and C150_no_effect_error: exceptions; C150_sequence; C150_agrees: the traverse of C43 is the special case"
  },
  {
   "property": "C151",
   "status": "proved",
   "theorems": [
    "Expression.Props.C151_loops",
    "Expression.Props.C151_never_cut",
    "Expression.Props.C151_fold",
    "Expression.Props.C151_agrees"
   ],
   "note": "C151_loops: for every source, callback and consumer, the loop over the result as a loop over the source with a try statement around each call; C151_never_cut and C151_fold: what comes out when the callback raises after any number of calls; C151_agrees: without these two exceptions the functions are those of C57 and the other properties"
  },
  {
   "property": "C152",
   "status": "proved",
   "theorems": [
    "Expression.Props.C152_nothing_left_open",
    "Expression.Props.C152_head_of_map",
    "Expression.Props.C152_agrees",
    "Expression.Props.C152_list"
   ],
   "note": "C152_nothing_left_open: a ledger beside the world counts the generators begun and not yet ended or closed; after any loop over any pipeline it is as before. C152_head_of_map: a run in full, for every generator and callback. C152_agrees: apart from the clean-up, the loop is the loop over the same pipeline in Model/Seq.lean, which the other properties are about"
  },
  {
   "property": "C153",
   "status": "partial",
   "theorems": [
    "Expression.Props.C153_kept_open_partial",
    "Expression.Props.C153_append_closes",
    "Expression.Props.C153_elements_lost",
    "Expression.Props.C153_elements_kept",
    "Expression.Props.C153_full_statement_false"
   ],
   "note": "full statement refuted by C153_full_statement_false and, for every generator, C153_append_closes (with C153_elements_lost and C153_elements_kept as runs); C153_kept_open_partial holds for the pipelines described by Wrapped"
  },
  {
   "property": "C154",
   "status": "proved",
   "theorems": [
    "Expression.Props.C154_same_or_overflow",
    "Expression.Props.C154_frames",
    "Expression.Props.C154_sources",
    "Expression.Props.C154_loop",
    "Expression.Props.C154_needs",
    "Expression.Props.C154_grown",
    "Expression.Props.C154_needs_wrapped",
    "Expression.Props.C154_mapped",
    "Expression.Props.C154_consumers",
    "Expression.Props.C154_consumers_frames",
    "Expression.Props.C154_consumers_need",
    "Expression.Props.C154_own_calls",
    "Expression.Props.C154_callbacks",
    "Expression.Props.C154_callback_back"
   ],
   "note": "C154_same_or_overflow for all sequences and loops; C154_frames, C154_sources and C154_loop: what suffices; C154_needs and C154_needs_wrapped: what is needed; C154_grown and C154_mapped: exact for sequences appended one at a time and for functions mapped one after the other. All the elements are awaited with the same number of free frames; C154_consumers, C154_consumers_frames and C154_consumers_need: fold, fold_back, head, length, sum, max and min. C154_own_calls: choose and sum need two frames in any case; C154_callbacks and C154_callback_back: the frames callbacks have"
  },
  {
   "property": "C155",
   "status": "partial",
   "theorems": [
    "Expression.Props.C155_grown_partial",
    "Expression.Props.C155_full_statement_false"
   ],
   "note": "full statement refuted by C155_full_statement_false; C155_grown_partial gives the exact number of resumptions, which is quadratic"
  },
  {
   "property": "C156",
   "status": "proved",
   "theorems": [
    "Expression.Props.C156_same_or_overflow",
    "Expression.Props.C156_frames",
    "Expression.Props.C156_needs",
    "Expression.Props.C156_own_calls",
    "Expression.Props.C156_same_or_overflow_more",
    "Expression.Props.C156_frames_more",
    "Expression.Props.C156_needs_more",
    "Expression.Props.C156_callbacks",
    "Expression.Props.C156_callback_back",
    "Expression.Props.C156_own_call_pick"
   ],
   "note": "C156_same_or_overflow and C156_same_or_overflow_more for all sequences; C156_frames and C156_frames_more: what suffices; C156_needs, C156_needs_more, C156_own_calls, C156_own_call_pick, C156_callbacks and C156_callback_back: what is needed. The methods of Seq take a frame more, which is not modelled; comparing takes no frame"
  },
  {
   "property": "C157",
   "status": "partial",
   "theorems": [
    "Expression.Props.C157_less_partial",
    "Expression.Props.C157_unsupported",
    "Expression.Props.C157_unrelated",
    "Expression.Props.C157_full_statement_false",
    "Expression.Props.C157_asked"
   ],
   "note": "Full statement refuted: <= and >= always raise TypeError (C157_unsupported). Proved: < and > (C157_less_partial), also between a union and plain subclasses, that unrelated unions cannot be compared, and which operand is asked first. Single inheritance."
  }
 ]
}