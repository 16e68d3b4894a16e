import Verif.Props.Again
import Verif.Props.Alias
import Verif.Props.App
import Verif.Props.Bits
import Verif.Props.Bucketer
import Verif.Props.Call
import Verif.Props.Changing
import Verif.Props.Client
import Verif.Props.Cost
import Verif.Props.Counter
import Verif.Props.CounterHtml
import Verif.Props.CounterPage
import Verif.Props.CounterTime
import Verif.Props.CounterTimeText
import Verif.Props.Demo
import Verif.Props.Dist
import Verif.Props.DistHisto
import Verif.Props.DistStats
import Verif.Props.Duration
import Verif.Props.Edges
import Verif.Props.Embed
import Verif.Props.Exist
import Verif.Props.Fair
import Verif.Props.Fine
import Verif.Props.Finite
import Verif.Props.Flow
import Verif.Props.Gob
import Verif.Props.Group
import Verif.Props.Handle
import Verif.Props.Health
import Verif.Props.Html
import Verif.Props.HtmlOrder
import Verif.Props.Http
import Verif.Props.Joint
import Verif.Props.Json
import Verif.Props.JsonText
import Verif.Props.Kinds
import Verif.Props.ListAgain
import Verif.Props.Listing
import Verif.Props.Lists
import Verif.Props.Live
import Verif.Props.Locks
import Verif.Props.Loss
import Verif.Props.Markup
import Verif.Props.Messages
import Verif.Props.Misc
import Verif.Props.Nested
import Verif.Props.Often
import Verif.Props.Order
import Verif.Props.PageRun
import Verif.Props.PageWhole
import Verif.Props.Path
import Verif.Props.Poll
import Verif.Props.PrettyOrder
import Verif.Props.Record
import Verif.Props.RegMany
import Verif.Props.Registry
import Verif.Props.Render
import Verif.Props.Request
import Verif.Props.Rest
import Verif.Props.RpcClient
import Verif.Props.Setup
import Verif.Props.ShortOrder
import Verif.Props.Text
import Verif.Props.TextOrder
import Verif.Props.TextRead
import Verif.Props.Types
import Verif.Props.Unmarshal
import Verif.Props.Wait
import Verif.Props.Whole
import Verif.Props.Wire
import Verif.Props.Words
import Verif.Props.Zero

/-! Prints the axioms of every property theorem. -/
#print axioms Tricorder.C01_components
#print axioms Tricorder.C01_components_unique
#print axioms Tricorder.C01_spelling
#print axioms Tricorder.C01_blank_pieces
#print axioms Tricorder.C01_canonical
#print axioms Tricorder.C02_directory_path
#print axioms Tricorder.C02_metric_path
#print axioms Tricorder.C02_paths_distinct
#print axioms Tricorder.C03_register_result
#print axioms Tricorder.C03_value_examined_before
#print axioms Tricorder.C04_register_success
#print axioms Tricorder.C05_false_directory
#print axioms Tricorder.C05_false_unit
#print axioms Tricorder.C05_failed_registration_partial
#print axioms Tricorder.C06_unregister_path
#print axioms Tricorder.C06_unregister_path_detached
#print axioms Tricorder.C07_unregister_directory
#print axioms Tricorder.C07_stale_handle
#print axioms Tricorder.C07_twice
#print axioms Tricorder.C08_unregistered_stays
#print axioms Tricorder.C08_unregistered_path_stays
#print axioms Tricorder.C08_calls_are_silent
#print axioms Tricorder.C09_register_directory
#print axioms Tricorder.C09_get_directory
#print axioms Tricorder.C10_canonical
#print axioms Tricorder.C10_listing
#print axioms Tricorder.C10_missing_path
#print axioms Tricorder.C11_listing
#print axioms Tricorder.C12_calls
#print axioms Tricorder.C12_prefix
#print axioms Tricorder.App.C13_application
#print axioms Tricorder.C13_listing_ends
#print axioms Tricorder.C13_tree
#print axioms Tricorder.C13_parent
#print axioms Tricorder.C13_abs_path_ends
#print axioms Tricorder.C13_api_calls
#print axioms Tricorder.Group.C14_own_reply
#print axioms Tricorder.Group.C14_own_confirmation
#print axioms Tricorder.Group.C14_one_at_a_time
#print axioms Tricorder.Group.C15_no_update_while_reading
#print axioms Tricorder.Group.C16_latest
#print axioms Tricorder.Group.C16_same_timestamp
#print axioms Tricorder.Group.C17_overlap
#print axioms Tricorder.Group.C17_join
#print axioms Tricorder.Group.C18_one_update
#print axioms Tricorder.Group.C19_accounting
#print axioms Tricorder.Group.C19_zero_again
#print axioms Tricorder.Group.C20_no_deadlock
#print axioms Tricorder.Group.C20_terminates
#print axioms Tricorder.Group.C20_all_can_close
#print axioms Tricorder.Group.C20_update_reading_own_group_blocks
#print axioms Tricorder.Group.C21_latest_function
#print axioms Tricorder.Group.C21_undisturbed
#print axioms Tricorder.Group.C21_confirmed
#print axioms Tricorder.Group.C22_unique_ids
#print axioms Tricorder.Group.C22_ids_wrap
#print axioms Tricorder.C23_same_time_partial
#print axioms Tricorder.C23_alone
#print axioms Tricorder.C23_false
#print axioms Tricorder.Group.C24_close_releases
#print axioms Tricorder.C24_list
#print axioms Tricorder.C24_get
#print axioms Tricorder.C24_text
#print axioms Tricorder.C24_html
#print axioms Tricorder.C24_collector
#print axioms Tricorder.C25_exactly_one_range
#print axioms Tricorder.C25_add_counts_in_its_range
#print axioms Tricorder.C25_nan_counts_in_last_range
#print axioms Tricorder.C25_remove_counts_in_its_range
#print axioms Tricorder.C26_sum_of_ranges
#print axioms Tricorder.C26_sum_of_ranges_partial
#print axioms Tricorder.C26_violated_after_panic
#print axioms Tricorder.C27_count
#print axioms Tricorder.C27_generation_partial
#print axioms Tricorder.C27_empty_generation
#print axioms Tricorder.C27_timestamp
#print axioms Tricorder.C27_timestamp_partial
#print axioms Tricorder.C27_panic_moves_timestamp
#print axioms Tricorder.C28_sum_in_exact_arithmetic
#print axioms Tricorder.C28_sum_of_multiples_partial
#print axioms Tricorder.C28_sum_close
#print axioms Tricorder.C28_cancellation
#print axioms Tricorder.C29_bounds
#print axioms Tricorder.C29_attained
#print axioms Tricorder.C29_update_widens_remove_keeps
#print axioms Tricorder.C30_in_exact_arithmetic
#print axioms Tricorder.C30_average_of_multiples_partial
#print axioms Tricorder.C30_average_close
#print axioms Tricorder.C30_median_close
#print axioms Tricorder.C30_average_out_of_bounds
#print axioms Tricorder.C30_median_out_of_bounds
#print axioms Tricorder.C31_snapshot_never_panics
#print axioms Tricorder.C32_rejected_unchanged
#print axioms Tricorder.C32_remove_empty_range_partial
#print axioms Tricorder.C32_update_empty_range_corrupts
#print axioms Tricorder.C33_unit_fixed_by_first_registration
#print axioms Tricorder.C34_duration_in_unit_partial
#print axioms Tricorder.C34_long_durations_rounded_twice
#print axioms Tricorder.C34_close
#print axioms Tricorder.C34_other_units_panic
#print axioms Tricorder.C34_duration_added
#print axioms Tricorder.C34_from_seconds
#print axioms Tricorder.C35_arbitrary
#print axioms Tricorder.C35_exponential_count
#print axioms Tricorder.C35_linear_count
#print axioms Tricorder.C35_endpoints_in_exact_arithmetic
#print axioms Tricorder.C35_float_ascending_partial
#print axioms Tricorder.C35_integer_endpoints_partial
#print axioms Tricorder.C35_predefined
#print axioms Tricorder.C35_equal_endpoints
#print axioms Tricorder.C35_nan_accepted
#print axioms Tricorder.C36_ladder_in_exact_arithmetic
#print axioms Tricorder.C36_ladder_strictly_ascending
#print axioms Tricorder.C36_panics
#print axioms Tricorder.C36_float_ladder_partial
#print axioms Tricorder.C36_float_ascending
#print axioms Tricorder.C36_first_above_lower
#print axioms Tricorder.C36_infinite_lower_never_ends
#print axioms Tricorder.C36_tiny_lower_never_ends
#print axioms Tricorder.C36_nan_accepted
#print axioms Tricorder.C37_isolated
#print axioms Tricorder.C37_immutable_shared
#print axioms Tricorder.C38_new_panics
#print axioms Tricorder.C38_new_panic_silent
#print axioms Tricorder.C38_change_panics
#print axioms Tricorder.C38_change_panic_silent
#print axioms Tricorder.C38_change
#print axioms Tricorder.C38_change_others
#print axioms Tricorder.C38_type_fixed
#print axioms Tricorder.C38_reader
#print axioms Tricorder.C39_goDuration_roundtrip
#print axioms Tricorder.C40_time_roundtrip
#print axioms Tricorder.C41_text_exact_and_roundtrip
#print axioms Tricorder.C41_text_all_durations
#print axioms Tricorder.C41_min_seconds_text
#print axioms Tricorder.C42_plain_decimals_partial
#print axioms Tricorder.C42_exact_language
#print axioms Tricorder.C42_accepts_more
#print axioms Tricorder.C43_exact
#print axioms Tricorder.C43_json_roundtrip_partial
#print axioms Tricorder.C43_zero_time_lost
#print axioms Tricorder.C44_json_idempotent
#print axioms Tricorder.C44_gorpc_idempotent
#print axioms Tricorder.C45_json_kinds
#print axioms Tricorder.C46_prettyFormat
#print axioms Tricorder.C46_prettyFormat_panics
#print axioms Tricorder.C47_int_roundtrip_partial
#print axioms Tricorder.C47_small_int_roundtrip
#print axioms Tricorder.C47_odd_integers_move
#print axioms Tricorder.C47_float_roundtrip
#print axioms Tricorder.C47_duration_roundtrip_partial
#print axioms Tricorder.C47_duration_close
#print axioms Tricorder.C47_time_roundtrip_partial
#print axioms Tricorder.C47_time_inexact
#print axioms Tricorder.C47_domain
#print axioms Tricorder.C48_register
#print axioms Tricorder.C48_register_grown
#print axioms Tricorder.C48_listing_partial
#print axioms Tricorder.C48_get_partial
#print axioms Tricorder.C48_named_false
#print axioms Tricorder.C48_flag_false
#print axioms Tricorder.C49_separators
#print axioms Tricorder.C49_panics
#print axioms Tricorder.C49_html
#print axioms Tricorder.C50_html
#print axioms Tricorder.C50_total
#print axioms Tricorder.C51_text
#print axioms Tricorder.C51_parse
#print axioms Tricorder.C51_injective
#print axioms Tricorder.Whole.C52_group
#print axioms Tricorder.C52_finite_partial
#print axioms Tricorder.C52_alone
#print axioms Tricorder.C52_false
#print axioms Tricorder.C52_not_encodable
#print axioms Tricorder.Health.C53_linearizable
#print axioms Tricorder.Health.C53_healthy
#print axioms Tricorder.Health.C53_unhealthy
#print axioms Tricorder.Health.C53_ready
#print axioms Tricorder.Health.C53_unready
#print axioms Tricorder.Health.C53_panics
#print axioms Tricorder.Health.C53_no_race
#print axioms Tricorder.Health.C53_can_finish
#print axioms Tricorder.C54_usage_partial
#print axioms Tricorder.C54_cpu_partial
#print axioms Tricorder.C54_cpu_false
#print axioms Tricorder.C54_stack_false
#print axioms Tricorder.C54_error
#print axioms Tricorder.C55_status
#print axioms Tricorder.C55_missing
#print axioms Tricorder.C55_text_exact
#print axioms Tricorder.C55_get_metric
#print axioms Tricorder.C55_text
#print axioms Tricorder.C56_flags_partial
#print axioms Tricorder.C56_value_partial
#print axioms Tricorder.C56_setFlagUnit
#print axioms Tricorder.C56_default
#print axioms Tricorder.C56_panic
#print axioms Tricorder.C56_conflict_false
#print axioms Tricorder.C56_nil_false
#print axioms Tricorder.C57_panics
#print axioms Tricorder.C57_zero_value
#print axioms Tricorder.C57_json_zero
#print axioms Tricorder.C57_nil_slice
#print axioms Tricorder.C57_message_zero
#print axioms Tricorder.C58_list
#print axioms Tricorder.C58_get
#print axioms Tricorder.C58_text
#print axioms Tricorder.C58_html
#print axioms Tricorder.C59_list
#print axioms Tricorder.C59_get
#print axioms Tricorder.C59_html
#print axioms Tricorder.C59_text_partial
#print axioms Tricorder.C59_text_false
#print axioms Tricorder.C60_predicates
#print axioms Tricorder.C60_unknown
#print axioms Tricorder.C61_registered
#print axioms Tricorder.C61_exact
#print axioms Tricorder.C61_design
#print axioms Tricorder.C61_sys_description
#print axioms Tricorder.C61_static
#print axioms Tricorder.C61_memory
#print axioms Tricorder.C62_list
#print axioms Tricorder.C62_list_converse_partial
#print axioms Tricorder.C62_list_alone
#print axioms Tricorder.C62_get
#print axioms Tricorder.C62_get_converse
#print axioms Tricorder.C62_named_false
#print axioms Tricorder.C63_directory
#print axioms Tricorder.C63_metric
#print axioms Tricorder.C63_history
#print axioms Tricorder.C63_history_register
#print axioms Tricorder.C63_history_bucketer
#print axioms Tricorder.C64_directory
#print axioms Tricorder.C64_metric
#print axioms Tricorder.C64_missing
#print axioms Tricorder.C64_escaped
#print axioms Tricorder.C65_links_partial
#print axioms Tricorder.C65_links_exact
#print axioms Tricorder.C65_links_false
#print axioms Tricorder.C66_list
#print axioms Tricorder.C66_get
#print axioms Tricorder.C66_alone
#print axioms Tricorder.C66_nan
#print axioms Tricorder.C66_bytes
#print axioms Tricorder.C67_plain
#print axioms Tricorder.C67_gzip
#print axioms Tricorder.C67_q0
#print axioms Tricorder.C68_page
#print axioms Tricorder.C68_has
#print axioms Tricorder.C68_routes
#print axioms Tricorder.C69_metric_partial
#print axioms Tricorder.C69_times_false
#print axioms Tricorder.C69_number_false
#print axioms Tricorder.C69_listing_partial
#print axioms Tricorder.Whole.C70_same_id
#print axioms Tricorder.Whole.C70_listing
#print axioms Tricorder.Whole.C70_single
#print axioms Tricorder.Whole.C70_same_time
#print axioms Tricorder.Whole.C70_taken_once
#print axioms Tricorder.Whole.C70_groups
#print axioms Tricorder.Whole.C70_shared
#print axioms Tricorder.Whole.C70_fresh
#print axioms Tricorder.C71_accepts
#print axioms Tricorder.C71_result
#print axioms Tricorder.Whole.C72_embeds
#print axioms Tricorder.Whole.C72_no_tick
#print axioms Tricorder.Whole.C72_listing
#print axioms Tricorder.Whole.C72_ends
#print axioms Tricorder.Whole.C73_listing
#print axioms Tricorder.Whole.C73_single
#print axioms Tricorder.Whole.C73_html
#print axioms Tricorder.Whole.C73_text
#print axioms Tricorder.Locks.C74_linear
#print axioms Tricorder.Locks.C74_quiet
#print axioms Tricorder.Locks.C74_orderly
#print axioms Tricorder.Locks.C74_exclusive
#print axioms Tricorder.Locks.C74_programs
#print axioms Tricorder.Locks.C74_no_deadlock
#print axioms Tricorder.C75_listing_partial
#print axioms Tricorder.C75_plain
#print axioms Tricorder.C75_get_partial
#print axioms Tricorder.C75_named_false
#print axioms Tricorder.C76_error
#print axioms Tricorder.C76_final
#print axioms Tricorder.C76_blocked
#print axioms Tricorder.C76_exclusive
#print axioms Tricorder.C76_compatible
#print axioms Tricorder.C76_race
#print axioms Tricorder.C77_lookup
#print axioms Tricorder.C77_missing
#print axioms Tricorder.C77_stays
#print axioms Tricorder.C77_found
#print axioms Tricorder.C77_get
#print axioms Tricorder.C77_directory
#print axioms Tricorder.C77_found_nowhere
#print axioms Tricorder.C78_metric
#print axioms Tricorder.C78_directory
#print axioms Tricorder.C78_unregister
#print axioms Tricorder.C78_unregister_only
#print axioms Tricorder.C78_lost
#print axioms Tricorder.C78_in_use_nowhere
#print axioms Tricorder.Whole.C79_listing
#print axioms Tricorder.Whole.C79_single
#print axioms Tricorder.Whole.C79_html
#print axioms Tricorder.Whole.C79_text
#print axioms Tricorder.Whole.C79_loop
#print axioms Tricorder.C80_ways
#print axioms Tricorder.C80_metric
#print axioms Tricorder.C80_metric_empty
#print axioms Tricorder.C80_directory
#print axioms Tricorder.C80_unregister
#print axioms Tricorder.C80_unregister_directory
#print axioms Tricorder.C80_lookup
#print axioms Tricorder.C80_lookup_result
#print axioms Tricorder.C81_histogram
#print axioms Tricorder.C81_median_in_exact_arithmetic
#print axioms Tricorder.C81_median
#print axioms Tricorder.C81_middle_exists
#print axioms Tricorder.C82_all_iff
#print axioms Tricorder.C82_effect
#print axioms Tricorder.C82_order
#print axioms Tricorder.C83_demo
#print axioms Tricorder.C83_squares
#print axioms Tricorder.C83_started
#print axioms Tricorder.C83_client
#print axioms Tricorder.C83_powers
#print axioms Tricorder.C84_into
#print axioms Tricorder.C84_list
#print axioms Tricorder.C84_fresh
#print axioms Tricorder.C84_get
#print axioms Tricorder.C84_calls
#print axioms Tricorder.C84_client_partial
#print axioms Tricorder.C84_stdout_false
#print axioms Tricorder.C84_stale_false
#print axioms Tricorder.C84_demo
#print axioms Tricorder.Whole.C85_register_metric
#print axioms Tricorder.Whole.C85_register_metric_root
#print axioms Tricorder.Whole.C85_register_directory
#print axioms Tricorder.Whole.C85_unregister
#print axioms Tricorder.Whole.C85_look_up
#print axioms Tricorder.Whole.C85_record
#print axioms Tricorder.Group.Nested.C86_same_guarantees
#print axioms Tricorder.Group.Nested.C86_can_finish
#print axioms Tricorder.Group.Nested.C86_metric_functions
#print axioms Tricorder.Group.Nested.C86_work
#print axioms Tricorder.Group.Nested.C86_cycle_blocks
#print axioms Tricorder.Group.Nested.C86_own_group_blocks
#print axioms Tricorder.Group.Nested.C86_exact
#print axioms Tricorder.Words.C87_words
#print axioms Tricorder.Words.C87_types
#print axioms Tricorder.Words.C87_time_pointer
#print axioms Tricorder.Words.C87_in_place_false
#print axioms Tricorder.Words.C87_undisturbed
#print axioms Tricorder.Whole.C87_group
#print axioms Tricorder.App.C88_reachable
#print axioms Tricorder.App.C88_calls
#print axioms Tricorder.App.C88_steps
#print axioms Tricorder.App.C88_requests
#print axioms Tricorder.App.C89_made
#print axioms Tricorder.App.C89_one_after_another
#print axioms Tricorder.App.C89_count
#print axioms Tricorder.C89_any_order
#print axioms Tricorder.C89_whole
#print axioms Tricorder.App.C89_sum_depends_on_order
#print axioms Tricorder.Whole.C90_listing
#print axioms Tricorder.Whole.C90_single
#print axioms Tricorder.Whole.C90_usage
#print axioms Tricorder.Whole.C90_memory
#print axioms Tricorder.Whole.C91_html
#print axioms Tricorder.Whole.C91_text
#print axioms Tricorder.Whole.C92_generation
#print axioms Tricorder.Whole.C92_ranges
#print axioms Tricorder.Whole.C92_unchanged
#print axioms Tricorder.Whole.C92_cumulative
#print axioms Tricorder.Whole.C92_spoiled
#print axioms Tricorder.Whole.C92_emptied
#print axioms Tricorder.Whole.C93_in_order
#print axioms Tricorder.Whole.C93_never_back
#print axioms Tricorder.Whole.C93_same_time
#print axioms Tricorder.Whole.C93_fresh
#print axioms Tricorder.Whole.C93_same_id
#print axioms Tricorder.C94_text
#print axioms Tricorder.C94_unique
#print axioms Tricorder.C94_read
#print axioms Tricorder.C94_string
#print axioms Tricorder.C94_bytes
#print axioms Tricorder.C94_list
#print axioms Tricorder.C94_get
#print axioms Tricorder.C95_metric
#print axioms Tricorder.C95_listing
#print axioms Tricorder.C95_run
#print axioms Tricorder.C95_get
#print axioms Tricorder.C96_metric
#print axioms Tricorder.C96_directory
#print axioms Tricorder.C96_safe
#print axioms Tricorder.C97_page
#print axioms Tricorder.C97_metric
#print axioms Tricorder.C97_value
#print axioms Tricorder.C97_forge
#print axioms Tricorder.C98_list
#print axioms Tricorder.C98_get
#print axioms Tricorder.C99_listing
#print axioms Tricorder.C99_nothing_else
#print axioms Tricorder.C99_get
#print axioms Tricorder.C99_text
#print axioms Tricorder.C99_html
#print axioms Tricorder.C100_reachable
#print axioms Tricorder.C100_runs
#print axioms Tricorder.C100_isolated
#print axioms Tricorder.C100_untouched
#print axioms Tricorder.C100_shared
#print axioms Tricorder.C100_read_false
#print axioms Tricorder.C100_append_shows
#print axioms Tricorder.C100_reslice
#print axioms Tricorder.C100_append
#print axioms Tricorder.Whole.C101_moment
#print axioms Tricorder.Whole.C101_again
#print axioms Tricorder.Whole.C101_never_back
#print axioms Tricorder.Whole.C101_same_time
#print axioms Tricorder.Whole.C101_fresh
#print axioms Tricorder.Whole.C101_shared
#print axioms Tricorder.C102_model
#print axioms Tricorder.C102_register
#print axioms Tricorder.C102_read
#print axioms Tricorder.C102_number
#print axioms Tricorder.C102_list
#print axioms Tricorder.C102_change
#print axioms Tricorder.C102_other
#print axioms Tricorder.C103_listing
#print axioms Tricorder.C103_text
#print axioms Tricorder.C103_html
#print axioms Tricorder.C103_metric
#print axioms Tricorder.Group.C104_group_silent
#print axioms Tricorder.Group.C104_group_hangs
#print axioms Tricorder.Group.C104_group_starves
#print axioms Tricorder.Group.C104_group_others
#print axioms Tricorder.Zero.C104_dist
#print axioms Tricorder.Zero.C104_list
#print axioms Tricorder.Zero.C104_dir
#print axioms Tricorder.Whole.C105_flow
#print axioms Tricorder.Whole.C105_one_range
#print axioms Tricorder.Whole.C106_in_order
#print axioms Tricorder.Whole.C106_dist
#print axioms Tricorder.Whole.C106_flow
#print axioms Tricorder.Whole.C106_list
#print axioms Tricorder.Whole.C106_two_moments
#print axioms Tricorder.Whole.C107_again
#print axioms Tricorder.Whole.C107_listed
#print axioms Tricorder.Whole.C108_again
#print axioms Tricorder.Whole.C108_listed
#print axioms Tricorder.Whole.C108_all_time
#print axioms Tricorder.Whole.C108_restart
#print axioms Tricorder.Whole.C109_text
#print axioms Tricorder.Whole.C109_html
#print axioms Tricorder.Fine.C110_whole
#print axioms Tricorder.Fine.C110_quiet
#print axioms Tricorder.Fine.C110_every
#print axioms Tricorder.Fine.C110_returns
#print axioms Tricorder.Whole.C111_lines
#print axioms Tricorder.Whole.C112_items
#print axioms Tricorder.Whole.C113_page
#print axioms Tricorder.Whole.C113_again
#print axioms Tricorder.Whole.C114_page
#print axioms Tricorder.Whole.C114_again
#print axioms Tricorder.C115_order
#print axioms Tricorder.C115_unique
#print axioms Tricorder.C116_order
#print axioms Tricorder.C116_unique
#print axioms Tricorder.C116_close
#print axioms Tricorder.C116_same
#print axioms Tricorder.C116_html
#print axioms Tricorder.Whole.C117_page
#print axioms Tricorder.Whole.C117_again
#print axioms Tricorder.Whole.C118_page
#print axioms Tricorder.Whole.C118_again
