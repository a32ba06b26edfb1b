import Verif.Props.Agent
import Verif.Props.Aio
import Verif.Props.Answers
import Verif.Props.Array
import Verif.Props.Array2
import Verif.Props.ArrayLive
import Verif.Props.ArraySeq
import Verif.Props.AsyncSeq
import Verif.Props.AsyncShared
import Verif.Props.AsyncStack
import Verif.Props.AsyncStop
import Verif.Props.Block
import Verif.Props.Block2
import Verif.Props.BlockCost
import Verif.Props.BlockKind
import Verif.Props.Builder
import Verif.Props.Builder2
import Verif.Props.CallStack
import Verif.Props.CancelInterrupt
import Verif.Props.Cancellation
import Verif.Props.Composite
import Verif.Props.Disposable
import Verif.Props.Extra
import Verif.Props.FromIterable
import Verif.Props.Functions
import Verif.Props.Grammar
import Verif.Props.GrammarCost
import Verif.Props.Interleave
import Verif.Props.Interrupt
import Verif.Props.Linked
import Verif.Props.Mailbox
import Verif.Props.MailboxInterrupt
import Verif.Props.Map
import Verif.Props.MapCost
import Verif.Props.MapHeap
import Verif.Props.MapHost
import Verif.Props.MapSource
import Verif.Props.MapStack
import Verif.Props.MapView
import Verif.Props.Match
import Verif.Props.MatchCollections
import Verif.Props.Modules
import Verif.Props.Network
import Verif.Props.OptId
import Verif.Props.OptionResult
import Verif.Props.Parser
import Verif.Props.ParserError
import Verif.Props.ParserFrames
import Verif.Props.ParserStack
import Verif.Props.ParserText
import Verif.Props.Rejects
import Verif.Props.Seq
import Verif.Props.Seq2
import Verif.Props.SeqClose
import Verif.Props.SeqConsume
import Verif.Props.SeqStack
import Verif.Props.Serialize
import Verif.Props.Slice
import Verif.Props.SliceAssign
import Verif.Props.StopIter
import Verif.Props.TaggedUnion
import Verif.Props.Text
import Verif.Props.TraverseAny
import Verif.Props.TryBody
import Verif.Props.Typing
import Verif.Props.UnionClass
import Verif.Props.UnionClass2
import Verif.Props.UnionOrder
import Verif.Props.With
import Verif.Props.Worker

/-! The axioms each property theorem depends on (printed during the build). -/

#print axioms Expression.Props.C01_lookups_refine_dictionary
#print axioms Expression.Props.C02_enumeration_ascending_complete
#print axioms Expression.Props.C03_len_counts_distinct_keys
#print axioms Expression.Props.C04_no_internal_error
#print axioms Expression.Props.C05_lookup_compares_only_on_searchPath
#print axioms Expression.Props.C05_insertion_built_balanced
#print axioms Expression.Props.C06_violated_unboundedly
#print axioms Expression.Props.C06_full_statement_false
#print axioms Expression.Props.C06_violated_linear
#print axioms Expression.Props.C06_depth_at_most_len
#print axioms Expression.Props.C06_removal_never_deepens_partial
#print axioms Expression.Props.C07_full_statement_false
#print axioms Expression.Props.C07_change_updates_one_key_partial
#print axioms Expression.Props.C08_filter
#print axioms Expression.Props.C08_partition
#print axioms Expression.Props.C08_filter_partition_lookup
#print axioms Expression.Props.C09_traversals
#print axioms Expression.Props.C10_full_statement_false
#print axioms Expression.Props.C10_not_symmetric
#print axioms Expression.Props.C10_equality_partial
#print axioms Expression.Props.C11_full_statement_false
#print axioms Expression.Props.C11_hash_partial
#print axioms Expression.Props.C12_last_binding_wins
#print axioms Expression.Props.C13_full_statement_false
#print axioms Expression.Props.C13_pick_partial
#print axioms Expression.Props.C14_map
#print axioms Expression.Props.C14_shape
#print axioms Expression.Props.C14_map_laws
#print axioms Expression.Props.C15_take_append_skip
#print axioms Expression.Props.C15_take
#print axioms Expression.Props.C15_skip
#print axioms Expression.Props.C15_negative
#print axioms Expression.Props.C16_full_statement_false
#print axioms Expression.Props.C16_take_last_partial
#print axioms Expression.Props.C16_skip_last_append_take_last
#print axioms Expression.Props.C16_at_zero
#print axioms Expression.Props.C17_sort_with
#print axioms Expression.Props.C17_sort
#print axioms Expression.Props.C17_ascending
#print axioms Expression.Props.C17_unique
#print axioms Expression.Props.C18_map
#print axioms Expression.Props.C18_starmap
#print axioms Expression.Props.C18_filter
#print axioms Expression.Props.C18_choose
#print axioms Expression.Props.C18_collect
#print axioms Expression.Props.C18_partition
#print axioms Expression.Props.C18_partition_filter
#print axioms Expression.Props.C18_partition_sizes
#print axioms Expression.Props.C18_mapi
#print axioms Expression.Props.C18_zip
#print axioms Expression.Props.C18_fold
#print axioms Expression.Props.C18_reduce
#print axioms Expression.Props.C18_sum_by
#print axioms Expression.Props.C18_forall
#print axioms Expression.Props.C18_append_assoc
#print axioms Expression.Props.C18_append_empty
#print axioms Expression.Props.C18_concat
#print axioms Expression.Props.C18_cons_head_tail
#print axioms Expression.Props.C18_empty
#print axioms Expression.Props.C18_item
#print axioms Expression.Props.C19_full_statement_false
#print axioms Expression.Props.C19_indexed_partial
#print axioms Expression.Props.C19_start_ignored
#print axioms Expression.Props.C20_left_identity
#print axioms Expression.Props.C20_right_identity
#print axioms Expression.Props.C20_assoc
#print axioms Expression.Props.C20_assoc_effects_differ
#print axioms Expression.Props.C20_map_choose
#print axioms Expression.Props.C21_unfold_returns
#print axioms Expression.Props.C21_unfold_raises
#print axioms Expression.Props.C21_unfold_diverges
#print axioms Expression.Props.C21_block_unfold_is_seq_unfold
#print axioms Expression.Props.C22_map
#print axioms Expression.Props.C22_filter
#print axioms Expression.Props.C22_choose
#print axioms Expression.Props.C22_collect
#print axioms Expression.Props.C22_scan
#print axioms Expression.Props.C22_skip
#print axioms Expression.Props.C22_take
#print axioms Expression.Props.C22_take_none
#print axioms Expression.Props.C22_zip
#print axioms Expression.Props.C22_pairwise
#print axioms Expression.Props.C22_delay
#print axioms Expression.Props.C22_take_pulls
#print axioms Expression.Props.C22_concat
#print axioms Expression.Props.C22_init_infinite
#print axioms Expression.Props.C23_head
#print axioms Expression.Props.C23_try_find_index
#print axioms Expression.Props.C23_try_pick
#print axioms Expression.Props.C24_oneshot_second_empty
#print axioms Expression.Props.C24_full_statement_false
#print axioms Expression.Props.C24_reiterable_partial
#print axioms Expression.Props.C24_same_elements_partial
#print axioms Expression.Props.C25_scan_states
#print axioms Expression.Props.C25_scan_last
#print axioms Expression.Props.C25_scan_length
#print axioms Expression.Props.C25_folds
#print axioms Expression.Props.C25_fold_back_reversed
#print axioms Expression.Props.C26_monad_laws
#print axioms Expression.Props.C26_functor_laws
#print axioms Expression.Props.C26_nothing
#print axioms Expression.Props.C26_some
#print axioms Expression.Props.C27_monad_laws
#print axioms Expression.Props.C27_functor_laws
#print axioms Expression.Props.C27_error
#print axioms Expression.Props.C27_filter
#print axioms Expression.Props.C27_first_error
#print axioms Expression.Props.C27_swap
#print axioms Expression.Props.C28_option_result
#print axioms Expression.Props.C28_reading
#print axioms Expression.Props.C28_reading_result
#print axioms Expression.Props.C28_optional_round_trip
#print axioms Expression.Props.C28_some_none_lost
#print axioms Expression.Props.C29_present
#print axioms Expression.Props.C29_missing
#print axioms Expression.Props.C29_or_else_chain
#print axioms Expression.Props.C30_construction
#print axioms Expression.Props.C30_type_error
#print axioms Expression.Props.C30_reading
#print axioms Expression.Props.C31_eq_iff
#print axioms Expression.Props.C31_equivalence
#print axioms Expression.Props.C31_full_statement_hash_false
#print axioms Expression.Props.C31_hash_partial
#print axioms Expression.Props.C31_order
#print axioms Expression.Props.C31_trichotomy
#print axioms Expression.Props.C31_transitive
#print axioms Expression.Props.C32_copy
#print axioms Expression.Props.C32_deepcopy
#print axioms Expression.Props.C32_pickle
#print axioms Expression.Props.C33_any_body
#print axioms Expression.Props.C33_full_statement_false
#print axioms Expression.Props.C33_block_partial
#print axioms Expression.Props.C33_block_is_bind
#print axioms Expression.Props.C34_any_body
#print axioms Expression.Props.C34_full_statement_false
#print axioms Expression.Props.C34_block_partial
#print axioms Expression.Props.C34_block_is_bind
#print axioms Expression.Props.C34_plain_body
#print axioms Expression.Props.C35_any_body
#print axioms Expression.Props.C35_collects
#print axioms Expression.Props.C36_full_statement_false
#print axioms Expression.Props.C36_any_body
#print axioms Expression.Props.C36_async_option_partial
#print axioms Expression.Props.C36_async_result_partial
#print axioms Expression.Props.C36_coroutine_option_partial
#print axioms Expression.Props.C36_coroutine_result_partial
#print axioms Expression.Props.C37_positions
#print axioms Expression.Props.C38_round_trip
#print axioms Expression.Props.C38_call
#print axioms Expression.Props.C38_value
#print axioms Expression.Props.C38_refuses
#print axioms Expression.Props.C39_accepts
#print axioms Expression.Props.C39_refuses
#print axioms Expression.Props.C39_message
#print axioms Expression.Props.C39_message_end
#print axioms Expression.Props.C40_or_else
#print axioms Expression.Props.C40_choice_success
#print axioms Expression.Props.C40_choice_failure
#print axioms Expression.Props.C40_choice_made
#print axioms Expression.Props.C40_any_of
#print axioms Expression.Props.C41_many
#print axioms Expression.Props.C41_never_fails
#print axioms Expression.Props.C41_raises
#print axioms Expression.Props.C41_many1
#print axioms Expression.Props.C41_ends
#print axioms Expression.Props.C41_whitespace
#print axioms Expression.Props.C41_endless
#print axioms Expression.Props.C42_sep_by1
#print axioms Expression.Props.C42_sep_by1_fails
#print axioms Expression.Props.C42_sep_by
#print axioms Expression.Props.C43_full_statement_false
#print axioms Expression.Props.C43_traverse_partial
#print axioms Expression.Props.C43_pure
#print axioms Expression.Props.C43_result
#print axioms Expression.Props.C43_all_ok
#print axioms Expression.Props.C43_first_error
#print axioms Expression.Props.C43_sequence
#print axioms Expression.Props.C43_traverse_sequence
#print axioms Expression.Props.C44_result
#print axioms Expression.Props.C44_option
#print axioms Expression.Props.C44_empty
#print axioms Expression.Props.C44_result_stops
#print axioms Expression.Props.C44_option_stops
#print axioms Expression.Props.C44_append
#print axioms Expression.Props.C44_append_option
#print axioms Expression.Props.C45_caught
#print axioms Expression.Props.C45_propagates
#print axioms Expression.Props.C45_plain
#print axioms Expression.Props.C45_result
#print axioms Expression.Props.C45_diverges
#print axioms Expression.Props.C45_none_escapes
#print axioms Expression.Props.C45_nested
#print axioms Expression.Props.C46_empty
#print axioms Expression.Props.C46_singleton
#print axioms Expression.Props.C46_cons
#print axioms Expression.Props.C46_append
#print axioms Expression.Props.C46_flatten
#print axioms Expression.Props.C46_pipe
#print axioms Expression.Props.C46_pure
#print axioms Expression.Props.C46_each_once
#print axioms Expression.Props.C46_first_exception
#print axioms Expression.Props.C46_pipe2
#print axioms Expression.Props.C46_pipe3
#print axioms Expression.Props.C46_no_functions
#print axioms Expression.Props.C46_starpipe
#print axioms Expression.Props.C46_starcompose
#print axioms Expression.Props.C46_flip
#print axioms Expression.Props.C46_flip_flip
#print axioms Expression.Props.C47_full_statement_false
#print axioms Expression.Props.C47_curry_partial
#print axioms Expression.Props.C47_any_split
#print axioms Expression.Props.C47_early
#print axioms Expression.Props.C47_surplus
#print axioms Expression.Props.C47_reuse
#print axioms Expression.Props.C47_negative
#print axioms Expression.Props.C47_curry_flip
#print axioms Expression.Props.C47_curry_flip_zero
#print axioms Expression.Props.C47_curry_flip_keywords
#print axioms Expression.Props.C47_pipeable
#print axioms Expression.Props.C48_ordinary
#print axioms Expression.Props.C48_ends
#print axioms Expression.Props.C48_diverges
#print axioms Expression.Props.C48_constant_stack
#print axioms Expression.Props.C49_at_most_once
#print axioms Expression.Props.C49_exactly_once
#print axioms Expression.Props.C49_not_before
#print axioms Expression.Props.C49_enter_raises
#print axioms Expression.Props.C49_no_deadlock
#print axioms Expression.Props.C49_bounded
#print axioms Expression.Props.C49_async
#print axioms Expression.Props.C49_returns
#print axioms Expression.Props.C49_async_returns
#print axioms Expression.Props.C50_ends
#print axioms Expression.Props.C50_called
#print axioms Expression.Props.C50_called_at_most
#print axioms Expression.Props.C50_moments
#print axioms Expression.Props.C50_distinct
#print axioms Expression.Props.C50_cancel_silent
#print axioms Expression.Props.C50_cancel_base
#print axioms Expression.Props.C50_token
#print axioms Expression.Props.C50_token_none
#print axioms Expression.Props.C51_full_statement_false
#print axioms Expression.Props.C51_at_most_once_partial
#print axioms Expression.Props.C51_open_partial
#print axioms Expression.Props.C51_called_partial
#print axioms Expression.Props.C51_called_only_partial
#print axioms Expression.Props.C51_unregistered_partial
#print axioms Expression.Props.C51_refused_partial
#print axioms Expression.Props.C51_no_deadlock_partial
#print axioms Expression.Props.C52_in_order
#print axioms Expression.Props.C52_futures
#print axioms Expression.Props.C53_wake_up
#print axioms Expression.Props.C53_quiescent
#print axioms Expression.Props.C53_no_deadlock
#print axioms Expression.Props.C53_bounded
#print axioms Expression.Props.C54_full_statement_false
#print axioms Expression.Props.C54_in_order_partial
#print axioms Expression.Props.C54_losses_partial
#print axioms Expression.Props.C54_two_lost_one_stuck
#print axioms Expression.Props.C55_full_statement_false
#print axioms Expression.Props.C55_last_early_reply_wins
#print axioms Expression.Props.C55_at_most_once_partial
#print axioms Expression.Props.C55_future_partial
#print axioms Expression.Props.C55_completes_partial
#print axioms Expression.Props.C55_single_reply_partial
#print axioms Expression.Props.C55_first_reply_partial
#print axioms Expression.Props.C55_sequential_partial
#print axioms Expression.Props.C56_full_statement_false
#print axioms Expression.Props.C56_byte_value_error
#print axioms Expression.Props.C56_stored_partial
#print axioms Expression.Props.C56_refused_partial
#print axioms Expression.Props.C56_enforced_declared
#print axioms Expression.Props.C56_inferred_partial
#print axioms Expression.Props.C56_any
#print axioms Expression.Props.C56_floats
#print axioms Expression.Props.C56_floats_convert
#print axioms Expression.Props.C56_bytes
#print axioms Expression.Props.C56_equality
#print axioms Expression.Props.C57_elements
#print axioms Expression.Props.C57_append
#print axioms Expression.Props.C57_take_concat
#print axioms Expression.Props.C57_folds
#print axioms Expression.Props.C57_fold_elements
#print axioms Expression.Props.C57_max_min
#print axioms Expression.Props.C57_head
#print axioms Expression.Props.C57_lazy
#print axioms Expression.Props.C57_take
#print axioms Expression.Props.C57_scan
#print axioms Expression.Props.C57_append_lazy
#print axioms Expression.Props.C58_full_statement_false
#print axioms Expression.Props.C58_take_pulls_partial
#print axioms Expression.Props.C58_take_zero
#print axioms Expression.Props.C59_full_statement_false
#print axioms Expression.Props.C59_collect_method_partial
#print axioms Expression.Props.C59_eager_partial
#print axioms Expression.Props.C60_frozen
#print axioms Expression.Props.C60_assignment_raises
#print axioms Expression.Props.C61_monad
#print axioms Expression.Props.C61_alternative
#print axioms Expression.Props.C61_map
#print axioms Expression.Props.C61_sequence
#print axioms Expression.Props.C61_opt
#print axioms Expression.Props.C61_between
#print axioms Expression.Props.C61_ignore
#print axioms Expression.Props.C61_ignore_value
#print axioms Expression.Props.C61_lift2
#print axioms Expression.Props.C61_starmap
#print axioms Expression.Props.C62_fraction
#print axioms Expression.Props.C62_whole
#print axioms Expression.Props.C63_full_statement_false
#print axioms Expression.Props.C63_depth_partial
#print axioms Expression.Props.C64_full_statement_false
#print axioms Expression.Props.C64_in_order_partial
#print axioms Expression.Props.C64_exception_partial
#print axioms Expression.Props.C65_full_statement_false
#print axioms Expression.Props.C65_next_receive_raises
#print axioms Expression.Props.C65_at_most_one_each_partial
#print axioms Expression.Props.C66_no_delivery
#print axioms Expression.Props.C66_receive_ends
#print axioms Expression.Props.C67_stores
#print axioms Expression.Props.C67_insert
#print axioms Expression.Props.C67_set_item
#print axioms Expression.Props.C67_del_item
#print axioms Expression.Props.C67_get_item
#print axioms Expression.Props.C67_append
#print axioms Expression.Props.C67_pop
#print axioms Expression.Props.C67_pop_last
#print axioms Expression.Props.C67_append_pop
#print axioms Expression.Props.C67_extend
#print axioms Expression.Props.C67_always_in_range
#print axioms Expression.Props.C67_reverse
#print axioms Expression.Props.C67_index
#print axioms Expression.Props.C67_remove
#print axioms Expression.Props.C68_full_statement_false
#print axioms Expression.Props.C68_shared_bytearray
#print axioms Expression.Props.C68_owned_partial
#print axioms Expression.Props.C69_full_statement_false
#print axioms Expression.Props.C69_map
#print axioms Expression.Props.C69_collect
#print axioms Expression.Props.C69_map_partial
#print axioms Expression.Props.C69_map_raises
#print axioms Expression.Props.C69_collect_partial
#print axioms Expression.Props.C69_choose_partial
#print axioms Expression.Props.C69_filter
#print axioms Expression.Props.C69_fold
#print axioms Expression.Props.C69_head
#print axioms Expression.Props.C69_of_seq_partial
#print axioms Expression.Props.C69_is_empty
#print axioms Expression.Props.C69_tail_partial
#print axioms Expression.Props.C69_sort_with_partial
#print axioms Expression.Props.C69_sort_partial
#print axioms Expression.Props.C69_sort_ascending_partial
#print axioms Expression.Props.C69_filter_any
#print axioms Expression.Props.C70_full_statement_false
#print axioms Expression.Props.C70_skip_raises
#print axioms Expression.Props.C70_take_skip_partial
#print axioms Expression.Props.C70_last_partial
#print axioms Expression.Props.C70_typed_unsized
#print axioms Expression.Props.C71_full_statement_false
#print axioms Expression.Props.C71_indexed_partial
#print axioms Expression.Props.C72_full_statement_false
#print axioms Expression.Props.C72_slices_partial
#print axioms Expression.Props.C72_filter_partial
#print axioms Expression.Props.C72_tail_sort_partial
#print axioms Expression.Props.C73_full_statement_false
#print axioms Expression.Props.C73_sources_partial
#print axioms Expression.Props.C74_second_empty
#print axioms Expression.Props.C74_full_statement_false
#print axioms Expression.Props.C74_reiterable_partial
#print axioms Expression.Props.C75_contains
#print axioms Expression.Props.C75_eq
#print axioms Expression.Props.C75_eq_equivalence
#print axioms Expression.Props.C75_eq_members
#print axioms Expression.Props.C75_append_members
#print axioms Expression.Props.C76_range
#print axioms Expression.Props.C76_range_unique
#print axioms Expression.Props.C76_constructors
#print axioms Expression.Props.C76_sum
#print axioms Expression.Props.C77_max_min
#print axioms Expression.Props.C77_max_min_source
#print axioms Expression.Props.C77_max_by
#print axioms Expression.Props.C77_sum
#print axioms Expression.Props.C77_length
#print axioms Expression.Props.C77_iter
#print axioms Expression.Props.C77_mapi
#print axioms Expression.Props.C77_append
#print axioms Expression.Props.C77_tail
#print axioms Expression.Props.C77_starmap
#print axioms Expression.Props.C77_range
#print axioms Expression.Props.C77_singleton
#print axioms Expression.Props.C78_repr
#print axioms Expression.Props.C78_repr_pulls
#print axioms Expression.Props.C78_repr_ends
#print axioms Expression.Props.C79_full_statement_false
#print axioms Expression.Props.C79_dict_plain_partial
#print axioms Expression.Props.C79_dict_shape_partial
#print axioms Expression.Props.C80_full_statement_false
#print axioms Expression.Props.C80_round_trip_partial
#print axioms Expression.Props.C80_dict_injective_partial
#print axioms Expression.Props.C80_exactly_partial
#print axioms Expression.Props.C80_exactly_when_partial
#print axioms Expression.Props.C81_result_never_loads
#print axioms Expression.Props.C81_block_in_option_is_list
#print axioms Expression.Props.C81_full_statement_false
#print axioms Expression.Props.C81_round_trip_partial
#print axioms Expression.Props.C81_exactly_partial
#print axioms Expression.Props.C82_full_statement_false
#print axioms Expression.Props.C82_sound_partial
#print axioms Expression.Props.C82_instances_partial
#print axioms Expression.Props.C82_json_option_unchecked
#print axioms Expression.Props.C83_first_call_decides
#print axioms Expression.Props.C83_callback_raises
#print axioms Expression.Props.C84_full_statement_false
#print axioms Expression.Props.C84_references_partial
#print axioms Expression.Props.C85_runs_alone
#print axioms Expression.Props.C85_cancelled_at_most_once
#print axioms Expression.Props.C85_other_sources
#print axioms Expression.Props.C85_without_token
#print axioms Expression.Props.C85_start_runs_nothing
#print axioms Expression.Props.C86_full_statement_false
#print axioms Expression.Props.C86_none_token
#print axioms Expression.Props.C86_start_raises_partial
#print axioms Expression.Props.C86_immediate_statement_false
#print axioms Expression.Props.C86_run_synchronously
#print axioms Expression.Props.C87_full_statement_false
#print axioms Expression.Props.C87_kept_partial
#print axioms Expression.Props.C87_plain_class
#print axioms Expression.Props.C87_init
#print axioms Expression.Props.C87_operators
#print axioms Expression.Props.C87_subclass_first
#print axioms Expression.Props.C87_no_eq
#print axioms Expression.Props.C87_repr
#print axioms Expression.Props.C87_unhashable
#print axioms Expression.Props.C87_package
#print axioms Expression.Props.C88_never_partial
#print axioms Expression.Props.C88_full_statement_false
#print axioms Expression.Props.C88_plain_subclass
#print axioms Expression.Props.C88_try
#print axioms Expression.Props.C88_cases
#print axioms Expression.Props.C88_position
#print axioms Expression.Props.C88_try_class
#print axioms Expression.Props.C89_equality
#print axioms Expression.Props.C89_hash
#print axioms Expression.Props.C89_hash_of
#print axioms Expression.Props.C89_full_statement_false
#print axioms Expression.Props.C89_copy_partial
#print axioms Expression.Props.C89_try
#print axioms Expression.Props.C89_repr
#print axioms Expression.Props.C90_full_statement_false
#print axioms Expression.Props.C90_block_text
#print axioms Expression.Props.C90_block_partial
#print axioms Expression.Props.C90_block_int
#print axioms Expression.Props.C90_map_text
#print axioms Expression.Props.C90_map_partial
#print axioms Expression.Props.C90_map_int
#print axioms Expression.Props.C91_asdict
#print axioms Expression.Props.C91_round_trip
#print axioms Expression.Props.C92_full_statement_false
#print axioms Expression.Props.C92_sum
#print axioms Expression.Props.C92_sum_int
#print axioms Expression.Props.C92_sum_by
#print axioms Expression.Props.C92_sum_by_partial
#print axioms Expression.Props.C92_unfold_partial
#print axioms Expression.Props.C92_unfold_ends
#print axioms Expression.Props.C92_text
#print axioms Expression.Props.C93_left_unit
#print axioms Expression.Props.C93_right_unit
#print axioms Expression.Props.C93_assoc
#print axioms Expression.Props.C93_assoc_seq_partial
#print axioms Expression.Props.C93_full_statement_false
#print axioms Expression.Props.C93_short_circuit
#print axioms Expression.Props.C93_combine
#print axioms Expression.Props.C93_return
#print axioms Expression.Props.C93_zero
#print axioms Expression.Props.C94_block_slice
#print axioms Expression.Props.C94_unique
#print axioms Expression.Props.C94_zero_step
#print axioms Expression.Props.C94_array_slice
#print axioms Expression.Props.C94_array_delete
#print axioms Expression.Props.C94_block_take
#print axioms Expression.Props.C94_block_split
#print axioms Expression.Props.C94_block_reverse
#print axioms Expression.Props.C95_depth_partial
#print axioms Expression.Props.C95_full_statement_false
#print axioms Expression.Props.C96_depth_partial
#print axioms Expression.Props.C96_full_statement_false
#print axioms Expression.Props.C97_block
#print axioms Expression.Props.C97_once
#print axioms Expression.Props.C97_disposed_after
#print axioms Expression.Props.C97_composite
#print axioms Expression.Props.C98_full_statement_false
#print axioms Expression.Props.C98_try_downcast_partial
#print axioms Expression.Props.C98_downcast
#print axioms Expression.Props.C99_option
#print axioms Expression.Props.C99_result
#print axioms Expression.Props.C99_union
#print axioms Expression.Props.C99_union_inj
#print axioms Expression.Props.C100_in_order
#print axioms Expression.Props.C100_no_error
#print axioms Expression.Props.C100_all_handled
#print axioms Expression.Props.C100_bounded
#print axioms Expression.Props.C101_reply
#print axioms Expression.Props.C101_everyone
#print axioms Expression.Props.C101_posts
#print axioms Expression.Props.C102_full_statement_false
#print axioms Expression.Props.C102_ends_partial
#print axioms Expression.Props.C103_add
#print axioms Expression.Props.C103_remove
#print axioms Expression.Props.C103_change
#print axioms Expression.Props.C103_lookup
#print axioms Expression.Props.C103_filter
#print axioms Expression.Props.C103_construction
#print axioms Expression.Props.C103_errors
#print axioms Expression.Props.C103_propagates
#print axioms Expression.Props.C103_depth
#print axioms Expression.Props.C103_comparisons
#print axioms Expression.Props.C103_comparisons_rebuilding
#print axioms Expression.Props.C103_plain
#print axioms Expression.Props.C104_updates
#print axioms Expression.Props.C104_traversals
#print axioms Expression.Props.C104_rebuilding
#print axioms Expression.Props.C104_iteration
#print axioms Expression.Props.C104_depth
#print axioms Expression.Props.C104_no_recursion_error
#print axioms Expression.Props.C105_full_statement_false
#print axioms Expression.Props.C105_empty_deletes
#print axioms Expression.Props.C105_int64
#print axioms Expression.Props.C105_list_partial
#print axioms Expression.Props.C105_same_storage_partial
#print axioms Expression.Props.C105_array_refuses
#print axioms Expression.Props.C105_not_iterable
#print axioms Expression.Props.C105_bytes_partial
#print axioms Expression.Props.C105_bytes_refuses
#print axioms Expression.Props.C105_read_back
#print axioms Expression.Props.C105_own
#print axioms Expression.Props.C105_unique
#print axioms Expression.Props.C105_always_in_range
#print axioms Expression.Props.C106_same_or_overflow
#print axioms Expression.Props.C106_frames
#print axioms Expression.Props.C106_choice_partial
#print axioms Expression.Props.C106_anyOf_partial
#print axioms Expression.Props.C106_sequence_partial
#print axioms Expression.Props.C106_pstring_partial
#print axioms Expression.Props.C106_many_partial
#print axioms Expression.Props.C106_many1_partial
#print axioms Expression.Props.C106_no_stack
#print axioms Expression.Props.C106_full_statement_false
#print axioms Expression.Props.C107_case
#print axioms Expression.Props.C107_constant
#print axioms Expression.Props.C107_other_class
#print axioms Expression.Props.C107_statement
#print axioms Expression.Props.C107_positional_partial
#print axioms Expression.Props.C107_option
#print axioms Expression.Props.C107_result
#print axioms Expression.Props.C107_tree
#print axioms Expression.Props.C107_twice
#print axioms Expression.Props.C107_full_statement_false
#print axioms Expression.Props.C108_block
#print axioms Expression.Props.C108_block_items
#print axioms Expression.Props.C108_block_star
#print axioms Expression.Props.C108_block_cons
#print axioms Expression.Props.C108_bare
#print axioms Expression.Props.C108_others_partial
#print axioms Expression.Props.C108_full_statement_false
#print axioms Expression.Props.C109_get
#print axioms Expression.Props.C109_keys_values
#print axioms Expression.Props.C109_items
#print axioms Expression.Props.C109_items_contains
#print axioms Expression.Props.C109_unhashable
#print axioms Expression.Props.C109_dict
#print axioms Expression.Props.C109_pattern
#print axioms Expression.Props.C109_pattern_rest
#print axioms Expression.Props.C110_in_order
#print axioms Expression.Props.C110_resumed
#print axioms Expression.Props.C110_begins
#print axioms Expression.Props.C110_full_statement_false
#print axioms Expression.Props.C110_prefix_partial
#print axioms Expression.Props.C110_lost_partial
#print axioms Expression.Props.C110_all_partial
#print axioms Expression.Props.C111_answer
#print axioms Expression.Props.C111_replies
#print axioms Expression.Props.C111_final
#print axioms Expression.Props.C112_silent
#print axioms Expression.Props.C112_unanswered
#print axioms Expression.Props.C112_accepts
#print axioms Expression.Props.C112_left
#print axioms Expression.Props.C113_no_message
#print axioms Expression.Props.C113_told
#print axioms Expression.Props.C113_never_begins
#print axioms Expression.Props.C113_receives_end
#print axioms Expression.Props.C113_ends
#print axioms Expression.Props.C114_full_statement_false
#print axioms Expression.Props.C114_shared
#print axioms Expression.Props.C114_alone_partial
#print axioms Expression.Props.C114_elements_partial
#print axioms Expression.Props.C114_combinators_partial
#print axioms Expression.Props.C115_parts
#print axioms Expression.Props.C115_at_most_once
#print axioms Expression.Props.C115_full_statement_false
#print axioms Expression.Props.C115_returned_partial
#print axioms Expression.Props.C115_alone_partial
#print axioms Expression.Props.C115_failed_partial
#print axioms Expression.Props.C115_failures_bounded_partial
#print axioms Expression.Props.C115_cancelled_once
#print axioms Expression.Props.C116_answers_partial
#print axioms Expression.Props.C116_call_partial
#print axioms Expression.Props.C116_pint_partial
#print axioms Expression.Props.C116_no_limit
#print axioms Expression.Props.C116_endless_partial
#print axioms Expression.Props.C116_full_statement_false
#print axioms Expression.Props.C116_repetition_false
#print axioms Expression.Props.C117_alone
#print axioms Expression.Props.C117_in_order
#print axioms Expression.Props.C117_sends
#print axioms Expression.Props.C117_send_order
#print axioms Expression.Props.C117_all_received
#print axioms Expression.Props.C117_answer
#print axioms Expression.Props.C117_waits
#print axioms Expression.Props.C117_follows
#print axioms Expression.Props.C117_calls
#print axioms Expression.Props.C117_asks
#print axioms Expression.Props.C117_replies
#print axioms Expression.Props.C117_back
#print axioms Expression.Props.C118_full_statement_false
#print axioms Expression.Props.C118_handed_up
#print axioms Expression.Props.C118_answered_partial
#print axioms Expression.Props.C118_forever
#print axioms Expression.Props.C119_full_statement_false
#print axioms Expression.Props.C119_linked_partial
#print axioms Expression.Props.C119_disposed_partial
#print axioms Expression.Props.C119_chain_partial
#print axioms Expression.Props.C119_only_partial
#print axioms Expression.Props.C119_alone_partial
#print axioms Expression.Props.C120_no_deadlock
#print axioms Expression.Props.C120_bounded
#print axioms Expression.Props.C120_returns
#print axioms Expression.Props.C121_reads
#print axioms Expression.Props.C121_refuses
#print axioms Expression.Props.C121_never_raises
#print axioms Expression.Props.C121_ends
#print axioms Expression.Props.C121_call
#print axioms Expression.Props.C121_unambiguous
#print axioms Expression.Props.C121_brackets
#print axioms Expression.Props.C122_answers
#print axioms Expression.Props.C122_left_recursion
#print axioms Expression.Props.C123_never_wrong
#print axioms Expression.Props.C123_enough
#print axioms Expression.Props.C123_left_recursion
#print axioms Expression.Props.C123_depth
#print axioms Expression.Props.C123_linear
#print axioms Expression.Props.C123_rule
#print axioms Expression.Props.C124_block
#print axioms Expression.Props.C124_async
#print axioms Expression.Props.C124_cleanup
#print axioms Expression.Props.C124_cleanup_async
#print axioms Expression.Props.C124_exactly_once
#print axioms Expression.Props.C125_full_statement_false
#print axioms Expression.Props.C125_ends_partial
#print axioms Expression.Props.C126_full_statement_false
#print axioms Expression.Props.C126_decides_partial
#print axioms Expression.Props.C126_no_result
#print axioms Expression.Props.C126_not_a_dictionary
#print axioms Expression.Props.C127_updates
#print axioms Expression.Props.C127_logarithmic
#print axioms Expression.Props.C127_traversals
#print axioms Expression.Props.C127_iteration
#print axioms Expression.Props.C127_rebuilding
#print axioms Expression.Props.C128_same
#print axioms Expression.Props.C128_counts
#print axioms Expression.Props.C128_polynomial_partial
#print axioms Expression.Props.C128_exponential
#print axioms Expression.Props.C128_full_statement_false
#print axioms Expression.Props.C128_quadratic
#print axioms Expression.Props.C128_linear_partial
#print axioms Expression.Props.C128_listed
#print axioms Expression.Props.C129_nothing_changes
#print axioms Expression.Props.C129_old_maps_remain
#print axioms Expression.Props.C129_one_tree
#print axioms Expression.Props.C129_add
#print axioms Expression.Props.C129_remove
#print axioms Expression.Props.C129_change
#print axioms Expression.Props.C129_map
#print axioms Expression.Props.C129_filter
#print axioms Expression.Props.C129_partition
#print axioms Expression.Props.C129_tryFind
#print axioms Expression.Props.C129_logarithmic
#print axioms Expression.Props.C129_history
#print axioms Expression.Props.C130_loop
#print axioms Expression.Props.C130_collect
#print axioms Expression.Props.C131_full_statement_false
#print axioms Expression.Props.C131_pipe_partial
#print axioms Expression.Props.C131_one_parameter
#print axioms Expression.Props.C131_uncurried
#print axioms Expression.Props.C131_uncurried_piped
#print axioms Expression.Props.C131_map2
#print axioms Expression.Props.C131_fold_back
#print axioms Expression.Props.C131_array_indexed
#print axioms Expression.Props.C131_wrong_call
#print axioms Expression.Props.C131_seq
#print axioms Expression.Props.C131_seq_zip
#print axioms Expression.Props.C131_seq_zip_false
#print axioms Expression.Props.C132_history
#print axioms Expression.Props.C132_cases
#print axioms Expression.Props.C132_loop_partial
#print axioms Expression.Props.C132_full_statement_false
#print axioms Expression.Props.C132_endless
#print axioms Expression.Props.C133_full_statement_false
#print axioms Expression.Props.C133_history
#print axioms Expression.Props.C133_methods
#print axioms Expression.Props.C133_forall
#print axioms Expression.Props.C133_bounded
#print axioms Expression.Props.C133_endless
#print axioms Expression.Props.C133_fold_partial
#print axioms Expression.Props.C133_map_filter_partial
#print axioms Expression.Props.C133_sort_with
#print axioms Expression.Props.C133_extend
#print axioms Expression.Props.C133_extend_shared
#print axioms Expression.Props.C134_block
#print axioms Expression.Props.C134_full_statement_false
#print axioms Expression.Props.C134_block_more
#print axioms Expression.Props.C134_array
#print axioms Expression.Props.C134_forall
#print axioms Expression.Props.C134_seq_breaks
#print axioms Expression.Props.C134_seq_raises
#print axioms Expression.Props.C134_block_partial
#print axioms Expression.Props.C134_seq_partial
#print axioms Expression.Props.C134_unchanged_partial
#print axioms Expression.Props.C135_full_statement_false
#print axioms Expression.Props.C135_search
#print axioms Expression.Props.C135_reversed_partial
#print axioms Expression.Props.C135_reversed_step
#print axioms Expression.Props.C135_clear_iadd
#print axioms Expression.Props.C135_plain
#print axioms Expression.Props.C136_full_statement_false
#print axioms Expression.Props.C136_shared
#print axioms Expression.Props.C136_operations
#print axioms Expression.Props.C136_list_operations
#print axioms Expression.Props.C136_alone
#print axioms Expression.Props.C136_told
#print axioms Expression.Props.C136_turned_away
#print axioms Expression.Props.C136_over
#print axioms Expression.Props.C136_alive_partial
#print axioms Expression.Props.C137_full_statement_false
#print axioms Expression.Props.C137_is_partial
#print axioms Expression.Props.C137_copies
#print axioms Expression.Props.C137_equality
#print axioms Expression.Props.C138_result
#print axioms Expression.Props.C138_own_kind_partial
#print axioms Expression.Props.C138_library_calls
#print axioms Expression.Props.C138_payload
#print axioms Expression.Props.C138_plain
#print axioms Expression.Props.C138_full_statement_false
#print axioms Expression.Props.C139_callbacks
#print axioms Expression.Props.C139_same_or_overflow
#print axioms Expression.Props.C139_frames
#print axioms Expression.Props.C139_frames_more
#print axioms Expression.Props.C139_needs_more
#print axioms Expression.Props.C139_needs
#print axioms Expression.Props.C139_effect_seq_partial
#print axioms Expression.Props.C139_no_stack
#print axioms Expression.Props.C139_full_statement_false
#print axioms Expression.Props.C140_effect_seq_partial
#print axioms Expression.Props.C140_full_statement_false
#print axioms Expression.Props.C141_compose
#print axioms Expression.Props.C141_result_pipeline
#print axioms Expression.Props.C141_option_pipeline
#print axioms Expression.Props.C141_constant_partial
#print axioms Expression.Props.C141_pipelines_partial
#print axioms Expression.Props.C141_full_statement_false
#print axioms Expression.Props.C142_cons
#print axioms Expression.Props.C142_quadratic_partial
#print axioms Expression.Props.C142_concat_singles
#print axioms Expression.Props.C142_traverse_ok
#print axioms Expression.Props.C142_many
#print axioms Expression.Props.C142_full_statement_false
#print axioms Expression.Props.C143_same_calls_partial
#print axioms Expression.Props.C143_no_beginning_partial
#print axioms Expression.Props.C143_many1
#print axioms Expression.Props.C143_full_statement_false
#print axioms Expression.Props.C143_values
#print axioms Expression.Props.C143_runs
#print axioms Expression.Props.C143_derived
#print axioms Expression.Props.C143_choice
#print axioms Expression.Props.C143_any_of
#print axioms Expression.Props.C144_written_out_partial
#print axioms Expression.Props.C144_exponential_partial
#print axioms Expression.Props.C144_exponential
#print axioms Expression.Props.C144_preturn
#print axioms Expression.Props.C144_full_statement_false
#print axioms Expression.Props.C145_of_seq
#print axioms Expression.Props.C145_array_of_seq
#print axioms Expression.Props.C145_true_partial
#print axioms Expression.Props.C145_tuple_partial
#print axioms Expression.Props.C145_false
#print axioms Expression.Props.C145_false_array
#print axioms Expression.Props.C145_false_map
#print axioms Expression.Props.C145_test_raises
#print axioms Expression.Props.C145_full_statement_false
#print axioms Expression.Props.C146_at_most_once
#print axioms Expression.Props.C146_no_deadlock
#print axioms Expression.Props.C146_enter_raises
#print axioms Expression.Props.C146_exactly_once_partial
#print axioms Expression.Props.C146_lost
#print axioms Expression.Props.C146_lost_run
#print axioms Expression.Props.C146_full_statement_false
#print axioms Expression.Props.C147_at_most_once
#print axioms Expression.Props.C147_no_key_error
#print axioms Expression.Props.C147_no_deadlock
#print axioms Expression.Props.C147_refused
#print axioms Expression.Props.C147_order
#print axioms Expression.Props.C147_called_partial
#print axioms Expression.Props.C147_removed_partial
#print axioms Expression.Props.C147_full_statement_false
#print axioms Expression.Props.C147_removal_lost
#print axioms Expression.Props.C147_leaked
#print axioms Expression.Props.C147_overwritten
#print axioms Expression.Props.C148_in_order
#print axioms Expression.Props.C148_full_statement_false
#print axioms Expression.Props.C148_left_over_partial
#print axioms Expression.Props.C148_last_post_partial
#print axioms Expression.Props.C148_next_post_partial
#print axioms Expression.Props.C148_losses
#print axioms Expression.Props.C148_no_deadlock
#print axioms Expression.Props.C149_message
#print axioms Expression.Props.C149_call
#print axioms Expression.Props.C149_one_complaint
#print axioms Expression.Props.C149_full_statement_false
#print axioms Expression.Props.C149_true_partial
#print axioms Expression.Props.C149_straight_partial
#print axioms Expression.Props.C149_last_alternative
#print axioms Expression.Props.C149_any_of
#print axioms Expression.Props.C150_traverse
#print axioms Expression.Props.C150_full_statement_false
#print axioms Expression.Props.C150_returned
#print axioms Expression.Props.C150_result_partial
#print axioms Expression.Props.C150_raises
#print axioms Expression.Props.C150_no_effect_error
#print axioms Expression.Props.C150_sequence
#print axioms Expression.Props.C150_agrees
#print axioms Expression.Props.C151_loops
#print axioms Expression.Props.C151_never_cut
#print axioms Expression.Props.C151_fold
#print axioms Expression.Props.C151_agrees
#print axioms Expression.Props.C152_nothing_left_open
#print axioms Expression.Props.C152_head_of_map
#print axioms Expression.Props.C152_agrees
#print axioms Expression.Props.C152_list
#print axioms Expression.Props.C153_kept_open_partial
#print axioms Expression.Props.C153_append_closes
#print axioms Expression.Props.C153_elements_lost
#print axioms Expression.Props.C153_elements_kept
#print axioms Expression.Props.C153_full_statement_false
#print axioms Expression.Props.C154_same_or_overflow
#print axioms Expression.Props.C154_frames
#print axioms Expression.Props.C154_sources
#print axioms Expression.Props.C154_loop
#print axioms Expression.Props.C154_needs
#print axioms Expression.Props.C154_grown
#print axioms Expression.Props.C154_needs_wrapped
#print axioms Expression.Props.C154_mapped
#print axioms Expression.Props.C154_consumers
#print axioms Expression.Props.C154_consumers_frames
#print axioms Expression.Props.C154_consumers_need
#print axioms Expression.Props.C154_own_calls
#print axioms Expression.Props.C154_callbacks
#print axioms Expression.Props.C154_callback_back
#print axioms Expression.Props.C155_grown_partial
#print axioms Expression.Props.C155_full_statement_false
#print axioms Expression.Props.C156_same_or_overflow
#print axioms Expression.Props.C156_frames
#print axioms Expression.Props.C156_needs
#print axioms Expression.Props.C156_own_calls
#print axioms Expression.Props.C156_same_or_overflow_more
#print axioms Expression.Props.C156_frames_more
#print axioms Expression.Props.C156_needs_more
#print axioms Expression.Props.C156_callbacks
#print axioms Expression.Props.C156_callback_back
#print axioms Expression.Props.C156_own_call_pick
#print axioms Expression.Props.C157_less_partial
#print axioms Expression.Props.C157_unsupported
#print axioms Expression.Props.C157_unrelated
#print axioms Expression.Props.C157_full_statement_false
#print axioms Expression.Props.C157_asked
