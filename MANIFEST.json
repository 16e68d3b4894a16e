{
 "claims": [
  {
   "property": "C01",
   "status": "proved",
   "theorems": [
    "Tricorder.C01_components",
    "Tricorder.C01_components_unique",
    "Tricorder.C01_spelling",
    "Tricorder.C01_blank_pieces",
    "Tricorder.C01_canonical"
   ],
   "note": "Splitting on '/', dropping blank pieces; stated against an independent notion of components; Unicode white space as in strings.TrimSpace."
  },
  {
   "property": "C02",
   "status": "proved",
   "theorems": [
    "Tricorder.C02_directory_path",
    "Tricorder.C02_metric_path",
    "Tricorder.C02_paths_distinct"
   ],
   "note": "For every reachable state; directories and metrics."
  },
  {
   "property": "C03",
   "status": "proved",
   "theorems": [
    "Tricorder.C03_register_result",
    "Tricorder.C03_value_examined_before"
   ],
   "note": "Result of RegisterMetric run alone, every handle, path, value, unit; flags are examined after the missing parents exist (C03_value_examined_before covers the rest)."
  },
  {
   "property": "C04",
   "status": "proved",
   "theorems": [
    "Tricorder.C04_register_success"
   ],
   "note": "Success of RegisterMetric: new metric, nothing else changed, new parents only."
  },
  {
   "property": "C05",
   "status": "partial",
   "theorems": [
    "Tricorder.C05_false_directory",
    "Tricorder.C05_false_unit",
    "Tricorder.C05_failed_registration_partial"
   ],
   "note": "False as claimed (two counterexamples): ancestor directories are left behind after a value error, and a distribution keeps the unit of a failed registration. The partial theorem says what does hold."
  },
  {
   "property": "C06",
   "status": "proved",
   "theorems": [
    "Tricorder.C06_unregister_path",
    "Tricorder.C06_unregister_path_detached"
   ],
   "note": "Exact effect of UnregisterPath seen from any directory at or above the handle; detached handles leave the root view alone."
  },
  {
   "property": "C07",
   "status": "proved",
   "theorems": [
    "Tricorder.C07_unregister_directory",
    "Tricorder.C07_stale_handle",
    "Tricorder.C07_twice"
   ],
   "note": "Exact effect of UnregisterDirectory seen from any directory; stale handle, root handle and second call are no-ops, also with other goroutines in between."
  },
  {
   "property": "C08",
   "status": "proved",
   "theorems": [
    "Tricorder.C08_unregistered_stays",
    "Tricorder.C08_unregistered_path_stays",
    "Tricorder.C08_calls_are_silent"
   ],
   "note": "Detached directories stay detached under every interleaving; no step of any call through such a handle changes the root view."
  },
  {
   "property": "C09",
   "status": "proved",
   "theorems": [
    "Tricorder.C09_register_directory",
    "Tricorder.C09_get_directory"
   ],
   "note": "RegisterDirectory / GetDirectory results, idempotence, exact new nodes."
  },
  {
   "property": "C10",
   "status": "proved",
   "theorems": [
    "Tricorder.C10_canonical",
    "Tricorder.C10_listing",
    "Tricorder.C10_missing_path"
   ],
   "note": "Run alone: result equals the GetMetric answers over the canonical list; panics characterised exactly; missing path."
  },
  {
   "property": "C11",
   "status": "proved",
   "theorems": [
    "Tricorder.C11_listing"
   ],
   "note": "Arbitrary interleavings: order, no duplicates, provenance of every reported item, completeness for metrics present throughout."
  },
  {
   "property": "C12",
   "status": "proved",
   "theorems": [
    "Tricorder.C12_calls",
    "Tricorder.C12_prefix"
   ],
   "note": "Any collector: call sequence stops at the first failure; visits in canonical order, one directly after the other (Calls is indexed by the history, with only look-ups of entries in between); alone a prefix of the canonical list."
  },
  {
   "property": "C13",
   "status": "proved",
   "theorems": [
    "Tricorder.App.C13_application",
    "Tricorder.C13_listing_ends",
    "Tricorder.C13_tree",
    "Tricorder.C13_parent",
    "Tricorder.C13_abs_path_ends",
    "Tricorder.C13_api_calls"
   ],
   "note": "IsTree is an invariant of every atomic step; parent links; absolute paths end; API calls only take allowed steps. C13_application: in every run of every application (Spec/App)."
  },
  {
   "property": "C14",
   "status": "proved",
   "theorems": [
    "Tricorder.Group.C14_own_reply",
    "Tricorder.Group.C14_own_confirmation",
    "Tricorder.Group.C14_one_at_a_time"
   ],
   "note": "For every run of the small-step machine (any number of groups and requests, every interleaving of rendezvous): a reply or confirmation always follows the taker's own acceptance with nothing else accepted or answered by that group in between, and carries the group's current timestamp; between an acceptance and its answer the loop serves nobody else."
  },
  {
   "property": "C15",
   "status": "proved",
   "theorems": [
    "Tricorder.Group.C15_no_update_while_reading"
   ],
   "note": "Neither begin nor end of an update of the group occurs between a visit's return and the request's closeBegin, in every run."
  },
  {
   "property": "C16",
   "status": "proved",
   "theorems": [
    "Tricorder.Group.C16_latest",
    "Tricorder.Group.C16_same_timestamp"
   ],
   "note": "A visit's result equals the latest updEnd of the group; two visits of one request to one group agree. time.Time is an arbitrary type."
  },
  {
   "property": "C17",
   "status": "proved",
   "theorems": [
    "Tricorder.Group.C17_overlap",
    "Tricorder.Group.C17_join"
   ],
   "note": "C17_overlap: both reading at one moment. C17_join: accepted while another reads, even if that one closes before the join returns."
  },
  {
   "property": "C18",
   "status": "proved",
   "theorems": [
    "Tricorder.Group.C18_one_update"
   ],
   "note": "The acceptance is unique (takes = 1), the calls since are exactly [registered function] or [] according to whether anybody held the group, and the returned value is the visit's timestamp."
  },
  {
   "property": "C19",
   "status": "proved",
   "theorems": [
    "Tricorder.Group.C19_accounting",
    "Tricorder.Group.C19_zero_again"
   ],
   "note": "lockCount is an unbounded integer in the model; it equals the number of holders, which is at most the number of goroutines. Between taking an increment and adding it the loop lags by that increment, stated exactly."
  },
  {
   "property": "C20",
   "status": "proved",
   "theorems": [
    "Tricorder.Group.C20_no_deadlock",
    "Tricorder.Group.C20_terminates",
    "Tricorder.Group.C20_all_can_close",
    "Tricorder.Group.C20_update_reading_own_group_blocks"
   ],
   "note": "No deadlock, a decreasing work measure for every step that starts nothing new, and completion. Update functions are assumed to return; the finding C20_update_reading_own_group_blocks shows the one way user code can block a group for ever."
  },
  {
   "property": "C21",
   "status": "proved",
   "theorems": [
    "Tricorder.Group.C21_latest_function",
    "Tricorder.Group.C21_undisturbed",
    "Tricorder.Group.C21_confirmed"
   ],
   "note": "Every update call is of the function registered last; while the registration is served no update, no other traffic, same lock count and timestamp."
  },
  {
   "property": "C22",
   "status": "proved",
   "theorems": [
    "Tricorder.Group.C22_unique_ids",
    "Tricorder.Group.C22_ids_wrap"
   ],
   "note": "Unique for the first 2^64 creations; C22_ids_wrap proves the int64 counter repeats after that."
  },
  {
   "property": "C23",
   "status": "partial",
   "theorems": [
    "Tricorder.C23_same_time_partial",
    "Tricorder.C23_alone",
    "Tricorder.C23_false"
   ],
   "note": "All interleavings while no distribution or list of that group id changes its time; alone in full; C23_false shows the rest is false (same distribution at two paths). C70_same_id: for single values it holds in full, with the event loops and everything else running."
  },
  {
   "property": "C24",
   "status": "proved",
   "theorems": [
    "Tricorder.Group.C24_close_releases",
    "Tricorder.C24_list",
    "Tricorder.C24_get",
    "Tricorder.C24_text",
    "Tricorder.C24_html",
    "Tricorder.C24_collector"
   ],
   "note": "Every request releases every group it takes, however it ends (panic, writer or collector failure, interference); on the level of groups: C24_close_releases."
  },
  {
   "property": "C25",
   "status": "proved",
   "theorems": [
    "Tricorder.C25_exactly_one_range",
    "Tricorder.C25_add_counts_in_its_range",
    "Tricorder.C25_nan_counts_in_last_range",
    "Tricorder.C25_remove_counts_in_its_range"
   ],
   "note": "All endpoint lists accepted by the constructor and all float64 values, including infinities, -0 and NaN."
  },
  {
   "property": "C26",
   "status": "partial",
   "theorems": [
    "Tricorder.C26_sum_of_ranges",
    "Tricorder.C26_sum_of_ranges_partial",
    "Tricorder.C26_violated_after_panic"
   ],
   "note": "C26_sum_of_ranges accounts exactly for every history, panicking ones included: ranges add up to Count plus the number of Updates that panicked over an empty range. So the claim holds when there was no such panic and is false otherwise (C26_violated_after_panic). Histories shorter than 2^64 calls."
  },
  {
   "property": "C27",
   "status": "partial",
   "theorems": [
    "Tricorder.C27_count",
    "Tricorder.C27_generation_partial",
    "Tricorder.C27_empty_generation",
    "Tricorder.C27_timestamp",
    "Tricorder.C27_timestamp_partial",
    "Tricorder.C27_panic_moves_timestamp"
   ],
   "note": "Count proved for all histories. Generation proved while the distribution is not empty; an emptied one reports 0 (C27_empty_generation). The time stamp is characterised exactly; it also moves on a panic over an empty range (C27_panic_moves_timestamp)."
  },
  {
   "property": "C28",
   "status": "partial",
   "theorems": [
    "Tricorder.C28_sum_in_exact_arithmetic",
    "Tricorder.C28_sum_of_multiples_partial",
    "Tricorder.C28_sum_close",
    "Tricorder.C28_cancellation"
   ],
   "note": "Exact arithmetic: all histories. float64: exact for multiples of a power of two; error bound for all finite values; false in general (C28_cancellation)."
  },
  {
   "property": "C29",
   "status": "proved",
   "theorems": [
    "Tricorder.C29_bounds",
    "Tricorder.C29_attained",
    "Tricorder.C29_update_widens_remove_keeps"
   ],
   "note": "All histories with non-NaN values (infinities allowed); Update/Remove clause in every reachable state including after misuse. Remove leaves Min and Max as they are while a value remains; when the last one goes, they start over."
  },
  {
   "property": "C30",
   "status": "partial",
   "theorems": [
    "Tricorder.C30_in_exact_arithmetic",
    "Tricorder.C30_average_of_multiples_partial",
    "Tricorder.C30_average_close",
    "Tricorder.C30_median_close",
    "Tricorder.C30_average_out_of_bounds",
    "Tricorder.C30_median_out_of_bounds"
   ],
   "note": "Exact arithmetic: all histories. float64 average: proved for multiples of a power of two, error bound for all finite values; float64 median: error bound. False in general: C30_average_out_of_bounds, C30_median_out_of_bounds."
  },
  {
   "property": "C31",
   "status": "proved",
   "theorems": [
    "Tricorder.C31_snapshot_never_panics"
   ],
   "note": "Every history of calls whatever their arguments, including ones that panicked and were recovered from."
  },
  {
   "property": "C32",
   "status": "partial",
   "theorems": [
    "Tricorder.C32_rejected_unchanged",
    "Tricorder.C32_remove_empty_range_partial",
    "Tricorder.C32_update_empty_range_corrupts"
   ],
   "note": "All rejections before the first write leave the snapshot alone. False for removing from an empty range (time stamp moves) and for Update whose old range is empty (C32_update_empty_range_corrupts)."
  },
  {
   "property": "C33",
   "status": "proved",
   "theorems": [
    "Tricorder.C33_unit_fixed_by_first_registration"
   ],
   "note": "Every sequence of registrations mixed with changes; setUnit is one critical section so every interleaving is a sequence."
  },
  {
   "property": "C34",
   "status": "partial",
   "theorems": [
    "Tricorder.C34_duration_in_unit_partial",
    "Tricorder.C34_long_durations_rounded_twice",
    "Tricorder.C34_close",
    "Tricorder.C34_other_units_panic",
    "Tricorder.C34_duration_added",
    "Tricorder.C34_from_seconds"
   ],
   "note": "Correctly rounded up to 2^53 ns (104 days); longer durations are rounded twice (C34_long_durations_rounded_twice), with relative error at most 2^-51 for all (C34_close). units.FromSeconds: C34_from_seconds."
  },
  {
   "property": "C35",
   "status": "partial",
   "theorems": [
    "Tricorder.C35_arbitrary",
    "Tricorder.C35_exponential_count",
    "Tricorder.C35_linear_count",
    "Tricorder.C35_endpoints_in_exact_arithmetic",
    "Tricorder.C35_float_ascending_partial",
    "Tricorder.C35_integer_endpoints_partial",
    "Tricorder.C35_predefined",
    "Tricorder.C35_equal_endpoints",
    "Tricorder.C35_nan_accepted"
   ],
   "note": "Guards, counts and ranges in both arithmetics; endpoint values and strict order in exact arithmetic; in float64 ascending order, and exact values for integers up to 2^53. Strict order is false in float64 (C35_equal_endpoints) and NaN passes the guards (C35_nan_accepted)."
  },
  {
   "property": "C36",
   "status": "partial",
   "theorems": [
    "Tricorder.C36_ladder_in_exact_arithmetic",
    "Tricorder.C36_ladder_strictly_ascending",
    "Tricorder.C36_panics",
    "Tricorder.C36_float_ladder_partial",
    "Tricorder.C36_float_ascending",
    "Tricorder.C36_first_above_lower",
    "Tricorder.C36_infinite_lower_never_ends",
    "Tricorder.C36_tiny_lower_never_ends",
    "Tricorder.C36_nan_accepted"
   ],
   "note": "Full in exact arithmetic. In float64: relative error 2^-40 and termination for 2^-800 <= lower <= upper <= 2^900; ascending always. False outside: never ends for +Inf and for the least positive float; first endpoint can exceed lower by an ulp; NaN accepted."
  },
  {
   "property": "C37",
   "status": "proved",
   "theorems": [
    "Tricorder.C37_isolated",
    "Tricorder.C37_immutable_shared"
   ],
   "note": "Slices that share only part of an array are not modelled: a slice is one object. The copy is made in one step; a slice written by another goroutine while NewList or Change copies it is a data race of the application. C37_immutable_shared shows that without the copy the writes do show."
  },
  {
   "property": "C38",
   "status": "proved",
   "theorems": [
    "Tricorder.C38_new_panics",
    "Tricorder.C38_new_panic_silent",
    "Tricorder.C38_change_panics",
    "Tricorder.C38_change_panic_silent",
    "Tricorder.C38_change",
    "Tricorder.C38_change_others",
    "Tricorder.C38_type_fixed",
    "Tricorder.C38_reader"
   ],
   "note": "The element type that is fixed is the metric type of the elements: []float64 may be changed to a slice of a user-declared float64 type. C38_change_panic_silent: a failed Change may leave an unreferenced copy."
  },
  {
   "property": "C39",
   "status": "proved",
   "theorems": [
    "Tricorder.C39_goDuration_roundtrip"
   ],
   "note": "All 2^64 time.Duration values, by integer arithmetic with explicit wrap-around."
  },
  {
   "property": "C40",
   "status": "proved",
   "theorems": [
    "Tricorder.C40_time_roundtrip"
   ],
   "note": "All instants with int64 seconds and nanoseconds in [0,1e9)."
  },
  {
   "property": "C41",
   "status": "proved",
   "theorems": [
    "Tricorder.C41_text_exact_and_roundtrip",
    "Tricorder.C41_text_all_durations",
    "Tricorder.C41_min_seconds_text"
   ],
   "note": "All Go durations and all units; also all coherent duration.Duration values whose seconds leave room for the unit factor. C41_min_seconds_text shows the one excluded point (Seconds = -2^63) is really wrong."
  },
  {
   "property": "C42",
   "status": "partial",
   "theorems": [
    "Tricorder.C42_plain_decimals_partial",
    "Tricorder.C42_exact_language",
    "Tricorder.C42_accepts_more"
   ],
   "note": "Accepting half proved for every plain decimal. The converse is false: Parse accepts more (inner sign, leading plus), proved in C42_accepts_more; the accepted language is characterised exactly in C42_exact_language."
  },
  {
   "property": "C43",
   "status": "partial",
   "theorems": [
    "Tricorder.C43_exact",
    "Tricorder.C43_json_roundtrip_partial",
    "Tricorder.C43_zero_time_lost"
   ],
   "note": "C43_exact: every well-formed metric with times within 292 million years of 1970 comes back with the same kind, sub-type, unit, time stamp and value, except that the zero time comes back as 1970 and a nil slice as an empty one; so it is lossless exactly if no time in the value is the zero time (C43_json_roundtrip_partial, C43_zero_time_lost)."
  },
  {
   "property": "C44",
   "status": "proved",
   "theorems": [
    "Tricorder.C44_json_idempotent",
    "Tricorder.C44_gorpc_idempotent"
   ],
   "note": "All metrics including malformed ones. ConvertToJson can panic on a malformed metric; idempotence is stated for calls that return."
  },
  {
   "property": "C45",
   "status": "proved",
   "theorems": [
    "Tricorder.C45_json_kinds"
   ],
   "note": "All well-formed metrics whose times lie within 292 million years of 1970."
  },
  {
   "property": "C46",
   "status": "proved",
   "theorems": [
    "Tricorder.C46_prettyFormat",
    "Tricorder.C46_prettyFormat_panics"
   ],
   "note": "All durations."
  },
  {
   "property": "C47",
   "status": "partial",
   "theorems": [
    "Tricorder.C47_int_roundtrip_partial",
    "Tricorder.C47_small_int_roundtrip",
    "Tricorder.C47_odd_integers_move",
    "Tricorder.C47_float_roundtrip",
    "Tricorder.C47_duration_roundtrip_partial",
    "Tricorder.C47_duration_close",
    "Tricorder.C47_time_roundtrip_partial",
    "Tricorder.C47_time_inexact",
    "Tricorder.C47_domain"
   ],
   "note": "Integers: every representable value except the odd ones with 2^52 <= |x| < 2^53, for which the claim is false (C47_odd_integers_move). Floats: all values. Durations: exact for 0 <= d < 2^50 ns, negative ones come back 1 ns high; general error bound up to 2^62 ns. Times: error bound of 3 ns + 2^-53 relative; not exact (C47_time_inexact). Conversions out of range, which Go leaves to the implementation, are a separate outcome."
  },
  {
   "property": "C48",
   "status": "partial",
   "theorems": [
    "Tricorder.C48_register",
    "Tricorder.C48_register_grown",
    "Tricorder.C48_listing_partial",
    "Tricorder.C48_get_partial",
    "Tricorder.C48_named_false",
    "Tricorder.C48_flag_false"
   ],
   "note": "False in two cases, both proved with witnesses: values of types declared by the program with kind bool, string, float or 8/16 bit integer are reported with their declared type (C48_named_false), and a flag whose Get method changes its result type (C48_flag_false). Otherwise proved for listings and GetMetric under any interference, from all states in which metrics were stored by RegisterMetric (C48_register, C48_register_grown). Concerns the messages before JSON encoding."
  },
  {
   "property": "C49",
   "status": "proved",
   "theorems": [
    "Tricorder.C49_separators",
    "Tricorder.C49_panics",
    "Tricorder.C49_html"
   ],
   "note": "Proved for addSeparators with any separator, group size and string (C49_separators), when it panics (C49_panics), and for the HTML rendering of every integer value of unit None (C49_html)."
  },
  {
   "property": "C50",
   "status": "proved",
   "theorems": [
    "Tricorder.C50_html",
    "Tricorder.C50_total"
   ],
   "note": "C50_html covers all integer kinds incl. named types, every unit; the float64 loop is modelled with exact IEEE rounding and shown to end after at most 6 divisions; Compact bounds the shown numeral by half a unit of its last digit plus the relative rounding error 2^-48 of the loop. Sprintf(%.nf) is modelled as exact round-half-even."
  },
  {
   "property": "C51",
   "status": "proved",
   "theorems": [
    "Tricorder.C51_text",
    "Tricorder.C51_parse",
    "Tricorder.C51_injective"
   ],
   "note": "Text is the canonical decimal numeral, parses back with the modelled strconv.ParseInt/ParseUint, and is injective."
  },
  {
   "property": "C52",
   "status": "partial",
   "theorems": [
    "Tricorder.Whole.C52_group",
    "Tricorder.C52_finite_partial",
    "Tricorder.C52_alone",
    "Tricorder.C52_false",
    "Tricorder.C52_not_encodable"
   ],
   "note": "All interleavings for sources that are steady or, once the listing has taken their group, changed only by the group's update function (C52_group, with everything running); alone in full; the rest is false: C52_false (value re-read after the test), C52_not_encodable (lists are not tested)."
  },
  {
   "property": "C53",
   "status": "proved",
   "theorems": [
    "Tricorder.Health.C53_linearizable",
    "Tricorder.Health.C53_healthy",
    "Tricorder.Health.C53_unhealthy",
    "Tricorder.Health.C53_ready",
    "Tricorder.Health.C53_unready",
    "Tricorder.Health.C53_panics",
    "Tricorder.Health.C53_no_race",
    "Tricorder.Health.C53_can_finish"
   ],
   "note": "Small-step model with explicit mutex and two-step assignments. The two subsystems are independent because Spec.result for /healthz looks only at health settings and for /readiness only at readiness settings (C53_healthy etc.)."
  },
  {
   "property": "C54",
   "status": "partial",
   "theorems": [
    "Tricorder.C54_usage_partial",
    "Tricorder.C54_cpu_partial",
    "Tricorder.C54_cpu_false",
    "Tricorder.C54_stack_false",
    "Tricorder.C54_error"
   ],
   "note": "CPU times are wrong by a factor of 1000 in the microseconds (C54_cpu_false; C54_cpu_partial says what is reported) and /proc/memory/unshared-stack always reports 0 (C54_stack_false); every other metric reports its field after every update and until the next one (C54_usage_partial), for fields that fit int64. A failing system call changes nothing (C54_error). Linux and other systems; the kernel and unsafe casts are outside the model."
  },
  {
   "property": "C55",
   "status": "proved",
   "theorems": [
    "Tricorder.C55_status",
    "Tricorder.C55_missing",
    "Tricorder.C55_text_exact",
    "Tricorder.C55_get_metric",
    "Tricorder.C55_text"
   ],
   "note": "GetMetric, singleton JSON with its status (C55_status), listings of missing paths with RPC and JSON (C55_missing, C10_missing_path), text page: exactly that text (C55_text_exact, writer that accepts everything), and what it is otherwise (C55_text); calls run alone."
  },
  {
   "property": "C56",
   "status": "partial",
   "theorems": [
    "Tricorder.C56_flags_partial",
    "Tricorder.C56_value_partial",
    "Tricorder.C56_setFlagUnit",
    "Tricorder.C56_default",
    "Tricorder.C56_panic",
    "Tricorder.C56_conflict_false",
    "Tricorder.C56_nil_false"
   ],
   "note": "Every flag set in which no flag is skipped or nil: a flag whose path meets that of an earlier one is silently not registered (C56_conflict_false), a nil Get value or a metric at /proc/flags makes RegisterFlags panic (C56_nil_false, C56_panic). RegisterFlags runs alone; what flags report later is with interference."
  },
  {
   "property": "C57",
   "status": "proved",
   "theorems": [
    "Tricorder.C57_panics",
    "Tricorder.C57_zero_value",
    "Tricorder.C57_json_zero",
    "Tricorder.C57_nil_slice",
    "Tricorder.C57_message_zero"
   ],
   "note": "All type names (the constants and every other string). ZeroValue and NilSlice panic for exactly these types (C57_panics)."
  },
  {
   "property": "C58",
   "status": "proved",
   "theorems": [
    "Tricorder.C58_list",
    "Tricorder.C58_get",
    "Tricorder.C58_text",
    "Tricorder.C58_html"
   ],
   "note": "Every own step of every request leaves the whole state unchanged, under any interleaving."
  },
  {
   "property": "C59",
   "status": "partial",
   "theorems": [
    "Tricorder.C59_list",
    "Tricorder.C59_get",
    "Tricorder.C59_html",
    "Tricorder.C59_text_partial",
    "Tricorder.C59_text_false"
   ],
   "note": "Listings, GetMetric, JSON, HTML and text directories in full; false for a single metric in the text endpoint (C59_text_false)."
  },
  {
   "property": "C60",
   "status": "proved",
   "theorems": [
    "Tricorder.C60_predicates",
    "Tricorder.C60_unknown"
   ],
   "note": "Stated about values whose type FromGoValueWithSubType knows; Bits of a time or duration is 0, as in the code."
  },
  {
   "property": "C61",
   "status": "proved",
   "theorems": [
    "Tricorder.C61_registered",
    "Tricorder.C61_exact",
    "Tricorder.C61_design",
    "Tricorder.C61_sys_description",
    "Tricorder.C61_static",
    "Tricorder.C61_memory"
   ],
   "note": "Initialization runs alone, as Go's package initialization does. Later steps of other goroutines are arbitrary as long as the metric stays registered and the variable is not written by others. C61_design compares with the table of the design document: three paths differ. C61_sys_description: /proc/cpu/sys has the description of /proc/cpu/user."
  },
  {
   "property": "C62",
   "status": "partial",
   "theorems": [
    "Tricorder.C62_list",
    "Tricorder.C62_list_converse_partial",
    "Tricorder.C62_list_alone",
    "Tricorder.C62_get",
    "Tricorder.C62_get_converse",
    "Tricorder.C62_named_false"
   ],
   "note": "JSON to RPC proved in full for listings (C62_list) and single metrics (C62_get, C62_get_converse), with interference. The converse for listings assumes that no list of times or durations has a declared slice type: such a list makes the JSON endpoints panic (C62_named_false), C62_list_alone gives the exact condition."
  },
  {
   "property": "C63",
   "status": "proved",
   "theorems": [
    "Tricorder.C63_directory",
    "Tricorder.C63_metric",
    "Tricorder.C63_history",
    "Tricorder.C63_history_register",
    "Tricorder.C63_history_bucketer"
   ],
   "note": "C63_directory and C63_metric for requests that run alone, in every state satisfying Typed: metrics registered through the API, values in the ranges of their Go types, distributions with the ranges of a Bucketer, flags whose Get keeps its type. C63_history proves Typed from a condition on single steps (every history of steps that obey Go's typing rules), C63_history_register that registrations are such steps, C63_history_bucketer that all Bucketers give such ranges. Formatting of floating point numbers (strconv.FormatFloat) is a parameter. A path that denotes nothing is C55_text."
  },
  {
   "property": "C64",
   "status": "proved",
   "theorems": [
    "Tricorder.C64_directory",
    "Tricorder.C64_metric",
    "Tricorder.C64_missing",
    "Tricorder.C64_escaped"
   ],
   "note": "C64_directory, C64_metric, C64_missing for requests that run alone, in every state satisfying Typed (as for C63); C64_escaped about all escaped text. Formatting of floating point numbers and times (strconv, time.Format) is a parameter; html/template's escapers and URL normaliser are modelled from their documentation in Model/Html.lean, and template execution writes chunk by chunk."
  },
  {
   "property": "C65",
   "status": "partial",
   "theorems": [
    "Tricorder.C65_links_partial",
    "Tricorder.C65_links_exact",
    "Tricorder.C65_links_false"
   ],
   "note": "Exact: C65_links_exact, the link leads to its directory exactly if no component of the path contains ? or #, or % before two hexadecimal digits, or is . or .. (PlainName); C65_links_partial adds that the path resolves to the directory. False otherwise: C65_links_false gives registrations a?b, a#b, %41, '.', '..' and where their links lead."
  },
  {
   "property": "C66",
   "status": "proved",
   "theorems": [
    "Tricorder.C66_list",
    "Tricorder.C66_get",
    "Tricorder.C66_alone",
    "Tricorder.C66_nan",
    "Tricorder.C66_bytes"
   ],
   "note": "encoding/json is modelled up to JSON values; their text is a parameter. C66_list and C66_get with interference; C66_alone for registries as in Typed. C66_nan and C66_bytes show that the two exceptions occur (a listing is lost as a whole if one list contains NaN; []uint8 becomes a string)."
  },
  {
   "property": "C67",
   "status": "proved",
   "theorems": [
    "Tricorder.C67_plain",
    "Tricorder.C67_gzip",
    "Tricorder.C67_q0"
   ],
   "note": "The compressor is a parameter with the law that the stream decodes to what was written; the connection takes everything. Nothing is claimed about requests that panic (the server drops the connection). C67_q0: gzip;q=0 is compressed too."
  },
  {
   "property": "C68",
   "status": "proved",
   "theorems": [
    "Tricorder.C68_page",
    "Tricorder.C68_has",
    "Tricorder.C68_routes"
   ],
   "note": "net/http is modelled as far as the handlers use it; URLs are those after the server's cleaning and decoding."
  },
  {
   "property": "C69",
   "status": "partial",
   "theorems": [
    "Tricorder.C69_metric_partial",
    "Tricorder.C69_times_false",
    "Tricorder.C69_number_false",
    "Tricorder.C69_listing_partial"
   ],
   "note": "False for lists of times and durations (C69_times_false: ConvertToGoRPC returns an error for every such list) and for numbers, whose value becomes a float64 (C69_number_false). Otherwise proved for single documents (C69_metric_partial) and for whole listings from the handler to the client (C69_listing_partial): kind, subtype, unit, bits, group, time stamp, times and durations exactly. The zero time comes back as 1970, lists as the generic value of their JSON value. encoding/json works on document trees; how it reads strings that are not ASCII and numbers as float64 is a parameter."
  },
  {
   "property": "C70",
   "status": "proved",
   "theorems": [
    "Tricorder.Whole.C70_same_id",
    "Tricorder.Whole.C70_listing",
    "Tricorder.Whole.C70_single",
    "Tricorder.Whole.C70_same_time",
    "Tricorder.Whole.C70_taken_once",
    "Tricorder.Whole.C70_groups",
    "Tricorder.Whole.C70_shared",
    "Tricorder.Whole.C70_fresh"
   ],
   "note": "Model/Whole composes the programs of Sys with the event loops of Group; nothing about groups is assumed. C70_listing and C70_single: the values and their update; C70_same_time, C70_taken_once; C70_shared and C70_fresh: requests that overlap and requests that do not. C70_groups: the groups of such a run are a run of Model/Group. Lists and distributions keep their own time stamps and are not claimed. The update function may be replaced at any time; an execution is whichever function is current. C70_same_id states it in terms of the GroupId in the answer."
  },
  {
   "property": "C71",
   "status": "proved",
   "theorems": [
    "Tricorder.C71_accepts",
    "Tricorder.C71_result"
   ],
   "note": "Durations that do not fit in an int64 of nanoseconds are accepted and wrap around (asGoDuration); their value is not claimed."
  },
  {
   "property": "C72",
   "status": "proved",
   "theorems": [
    "Tricorder.Whole.C72_embeds",
    "Tricorder.Whole.C72_no_tick",
    "Tricorder.Whole.C72_listing",
    "Tricorder.Whole.C72_ends"
   ],
   "note": "C72_embeds: every finished call of Model/Whole, whatever the program, is a run RunI of Model/Sys in which the groups answer as the event loops did (the number of answers so far is kept in a component of the state that the library does not see), so the theorems about RunI (C07, C11 to C13, C23, C24, C55, ...) hold with the event loops running; C72_no_tick: its hypothesis holds for the library's calls. C72_listing and C72_ends carry C11 and C13 over explicitly."
  },
  {
   "property": "C73",
   "status": "proved",
   "theorems": [
    "Tricorder.Whole.C73_listing",
    "Tricorder.Whole.C73_single",
    "Tricorder.Whole.C73_html",
    "Tricorder.Whole.C73_text"
   ],
   "note": "About Model/Whole, all goroutines together with the event loops. CanFinish: from every run there is a continuation consisting only of steps of the call itself and of event loop steps that start nothing. The step in which a running update function returns counts as an event loop step, so an update function that never returns is outside the claim. Hypothesis KnownGroup: metrics are registered with groups that exist (the API gives out no others). Directory operations are single steps here; that their mutexes cannot block for ever is C74_no_deadlock."
  },
  {
   "property": "C74",
   "status": "proved",
   "theorems": [
    "Tricorder.Locks.C74_linear",
    "Tricorder.Locks.C74_quiet",
    "Tricorder.Locks.C74_orderly",
    "Tricorder.Locks.C74_exclusive",
    "Tricorder.Locks.C74_programs",
    "Tricorder.Locks.C74_no_deadlock"
   ],
   "note": "Model/Locks executes the critical sections as sequences of single field reads and writes by any number of goroutines; a lock is granted as sync.RWMutex grants it (writer preference plays no part in safety). C74_linear, C74_quiet: the effects, in order, replayed by exec of Model/Sys, give the same results and memory; C74_orderly: one effect per call, between call and return; C74_exclusive; C74_no_deadlock; C74_programs: the calls of a goroutine that executes a program are a run RunI of it. Hypothesis Local: callbacks, flags and map order do not depend on the fields behind the locks. Simplified: a slice that must be copied is copied before the call; new objects are allocated in the step that publishes them; the immutable fields (enclosing entry, pieces, sub type) are read at the call. Taking a group is one step here; the event loops are the subject of C70 to C73."
  },
  {
   "property": "C75",
   "status": "partial",
   "theorems": [
    "Tricorder.C75_listing_partial",
    "Tricorder.C75_plain",
    "Tricorder.C75_get_partial",
    "Tricorder.C75_named_false"
   ],
   "note": "False: C75_named_false, one metric of a type declared as int8 and the listing of the root cannot be sent. Proved: an answer can be sent exactly if it holds no value of a declared type (C75_listing_partial, C75_get_partial), in particular always in programs that register only predeclared types (C75_plain). Assumed of encoding/gob: it registers the predeclared types and slices of them, needs the registration of the concrete types in interfaces, and refuses nil pointers; bytes are not modelled. A program can avoid the failure by calling gob.Register for its types on both sides. Flags: as long as Get keeps its result type. RegisterMetric accepts variables, functions and lists of types that the program declares, like `type Level int8`, and such a value is handed to gob as it is. One such metric makes ListMetrics of every directory above it fail for every client, since gob encodes the whole list and net/rpc closes the connection. The kinds int32, int64, uint32, uint64, times, durations and distributions are converted and never affected."
  },
  {
   "property": "C76",
   "status": "proved",
   "theorems": [
    "Tricorder.C76_error",
    "Tricorder.C76_final",
    "Tricorder.C76_blocked",
    "Tricorder.C76_exclusive",
    "Tricorder.C76_compatible",
    "Tricorder.C76_race"
   ],
   "note": "Joint (Spec/Joint) interleaves the programs of any number of calls, step by step, with steps of others that leave the tree alone; joint_run: seen from one goroutine this is a run RunI, so the single-call facts apply. (1) C76_compatible, (2) C76_race, (3) C76_exclusive, C76_blocked, (4) C76_error, (5) C76_final. Values can be registered: valueSays, the condition of C03, in every state of the run. Calls that unregister at the same time are not part of this property. A failing call can leave behind directories that it created on the way (see C05)."
  },
  {
   "property": "C77",
   "status": "proved",
   "theorems": [
    "Tricorder.C77_lookup",
    "Tricorder.C77_missing",
    "Tricorder.C77_stays",
    "Tricorder.C77_found",
    "Tricorder.C77_get",
    "Tricorder.C77_directory",
    "Tricorder.C77_found_nowhere"
   ],
   "note": "RunI lets arbitrary accepted commands of other goroutines happen between any two steps. (1) C77_missing, C77_get, (2) C77_stays, (3) C77_found, (4) C77_lookup, C77_directory, where CutBy (Spec/Changing) says that a step of somebody else unregisters a directory on the way, (5) C77_found_nowhere: a schedule in which a metric is found though at no moment there is anything at the path. The getters lock each directory on its own, so there is no snapshot of a path."
  },
  {
   "property": "C78",
   "status": "proved",
   "theorems": [
    "Tricorder.C78_metric",
    "Tricorder.C78_directory",
    "Tricorder.C78_unregister",
    "Tricorder.C78_unregister_only",
    "Tricorder.C78_lost",
    "Tricorder.C78_in_use_nowhere"
   ],
   "note": "(1) C78_metric, C78_directory, (2) C78_unregister, C78_unregister_only, (3) C78_lost (nil, but never visible), C78_in_use_nowhere. registerMetric walks to the directory and stores the metric under that directory's own lock only; nothing notices that the directory has left the tree meanwhile. UnregisterDirectory on a handle is a single critical section of the parent (C07)."
  },
  {
   "property": "C79",
   "status": "proved",
   "theorems": [
    "Tricorder.Whole.C79_listing",
    "Tricorder.Whole.C79_single",
    "Tricorder.Whole.C79_html",
    "Tricorder.Whole.C79_text",
    "Tricorder.Whole.C79_loop"
   ],
   "note": "About infinite runs of Model/Whole (Forever). FairTo: strong fairness to the goroutine of the request (if it can take a step again and again, it takes one; Go serves blocked senders of a channel in order, so this holds of the channels). LoopRuns: weak fairness to each event loop, which includes that its update function returns. Nothing is assumed of the other goroutines. Hypothesis KnownGroup as in C73. The recursion of a listing has fuel in the model; C79_listing says that the answer is not cut off if the tree never has as many entries as the fuel; HTTP requests need no more fairness than that the writer returns, which it does in the model."
  },
  {
   "property": "C80",
   "status": "proved",
   "theorems": [
    "Tricorder.C80_ways",
    "Tricorder.C80_metric",
    "Tricorder.C80_metric_empty",
    "Tricorder.C80_directory",
    "Tricorder.C80_unregister",
    "Tricorder.C80_unregister_directory",
    "Tricorder.C80_lookup",
    "Tricorder.C80_lookup_result"
   ],
   "note": "Model/Api has the public functions as they call registerMetric, registerDirectory and unregisterPath. ActsLike: executed alone the two programs have the same result and effect; and every run of the call through the handle while other goroutines take steps (RunI) is also a run of the call with the full path, which only looks up the directories on the way at the beginning. The other direction does not hold amid changes: the full path may lead elsewhere after the handle was obtained. UnregisterDirectory against UnregisterPath is compared for calls executed alone, since one of them is a single critical section (C07, C78). Nil directories are not modelled. C80_lookup_result says what the look-ups return."
  },
  {
   "property": "C81",
   "status": "proved",
   "theorems": [
    "Tricorder.C81_histogram",
    "Tricorder.C81_median_in_exact_arithmetic",
    "Tricorder.C81_median",
    "Tricorder.C81_middle_exists"
   ],
   "note": "C81_histogram and C81_median are about the float64 code, C81_median_in_exact_arithmetic about the same code over the rationals. Middle values are stated with IsNth (position in a sorted permutation), not with anything the code computes; C81_middle_exists says that they and their ranges exist. The float64 median is stated up to rounding error, because without it the claim is false (C30_median_out_of_bounds). |Min|, |Max| ≤ 2^900 is assumed there, to exclude overflow of the intermediate products."
  },
  {
   "property": "C82",
   "status": "proved",
   "theorems": [
    "Tricorder.C82_all_iff",
    "Tricorder.C82_effect",
    "Tricorder.C82_order"
   ],
   "note": "C82_all_iff: all succeed iff FitTogether and FitState, both stated with Components, Reaches and valueSays. C82_effect: what is there afterwards. C82_order: any permutation succeeds too, with the same description and value at every path and the same distributions; object numbers in the tree may differ. The calls are executed one after the other; interleaved registrations are the subject of C13 and C76. Flags are left out because the type of the value a flag returns may change between the calls; for them see C56."
  },
  {
   "property": "C83",
   "status": "proved",
   "theorems": [
    "Tricorder.C83_demo",
    "Tricorder.C83_squares",
    "Tricorder.C83_started",
    "Tricorder.C83_client",
    "Tricorder.C83_powers"
   ],
   "note": "C83_demo: the program run from any reachable state with free paths, and what GetMetric answers afterwards. C83_squares: the goroutine updateList with any steps of others in between (Alone excludes changing the same list and writing the slices it made). C83_started: after start-up the paths are free. C83_client: the answers to the client program's requests in between. C83_powers: the predefined ranges. Not modelled: main, the HTTP server, printing. The reported median is interpolated from the ranges (about 249.749)."
  },
  {
   "property": "C84",
   "status": "partial",
   "theorems": [
    "Tricorder.C84_into",
    "Tricorder.C84_list",
    "Tricorder.C84_fresh",
    "Tricorder.C84_get",
    "Tricorder.C84_calls",
    "Tricorder.C84_client_partial",
    "Tricorder.C84_stdout_false",
    "Tricorder.C84_stale_false",
    "Tricorder.C84_demo"
   ],
   "note": "False in two ways: the program writes the metrics to standard input instead of standard output (C84_stdout_false: whatever the server answers, standard output gets only titles and empty lines), and it decodes into variables it used before, so that fields which gob does not send because they are zero keep the values of the metric before (C84_stale_false: a bool is printed with 64 bits). Proved: decoding is right exactly if no zero field meets a non-zero one (C84_into), always for new variables (C84_fresh, C84_calls), element by element for lists (C84_list); when a call fails (C84_get); everything the client program prints, in any interleaving (C84_client_partial); with the demo program as server the printed metrics are those sent (C84_demo). Assumed of encoding/gob: zero fields are not sent and not touched when decoding, interfaces are decoded into new values, arrays of slices are used again; nil and empty slices are not told apart."
  },
  {
   "property": "C85",
   "status": "proved",
   "theorems": [
    "Tricorder.Whole.C85_register_metric",
    "Tricorder.Whole.C85_register_metric_root",
    "Tricorder.Whole.C85_register_directory",
    "Tricorder.Whole.C85_unregister",
    "Tricorder.Whole.C85_look_up",
    "Tricorder.Whole.C85_record"
   ],
   "note": "In Model/Whole, where the event loops, update functions and other goroutines run beside the call. C85_register_metric, _register_metric_root, _register_directory, _unregister, _look_up, _record: NeverWaits (Spec/Wait) with the bound on the number of steps. A step is one critical section of the mutex of a directory, distribution or list; that these are granted is C74_no_deadlock. Calls of user code by the registration itself (flag.Getter.Get, flag.Value.String) are single steps that return. RegisterUpdateFunc is not among these calls: it waits for the event loop (C21)."
  },
  {
   "property": "C86",
   "status": "proved",
   "theorems": [
    "Tricorder.Group.Nested.C86_same_guarantees",
    "Tricorder.Group.Nested.C86_can_finish",
    "Tricorder.Group.Nested.C86_metric_functions",
    "Tricorder.Group.Nested.C86_work",
    "Tricorder.Group.Nested.C86_cycle_blocks",
    "Tricorder.Group.Nested.C86_own_group_blocks",
    "Tricorder.Group.Nested.C86_exact"
   ],
   "note": "Model/Nested adds to the groups (Model/Group) who opened each session: an update function returns, and a request goes on after calling a function, only when the sessions opened by it are closed. C86_same_guarantees (so C14 to C21 and C24 hold of these runs), C86_can_finish, C86_metric_functions, C86_work, C86_cycle_blocks, C86_own_group_blocks, C86_exact. Update functions that wait for other goroutines of the program are not modelled."
  },
  {
   "property": "C87",
   "status": "proved",
   "theorems": [
    "Tricorder.Words.C87_words",
    "Tricorder.Words.C87_types",
    "Tricorder.Words.C87_time_pointer",
    "Tricorder.Words.C87_in_place_false",
    "Tricorder.Words.C87_undisturbed",
    "Tricorder.Whole.C87_group"
   ],
   "note": "Model/Words: a read takes one step per word of a 64-bit machine, other goroutines store in between, in one order for all. C87_words and C87_types: exactly which values may be assigned to while they are read; C87_time_pointer: the documented way to change a time; C87_in_place_false: what happens otherwise; C87_undisturbed; C87_group, in Model/Whole. Weaker memory models than sequential consistency are not modelled."
  },
  {
   "property": "C88",
   "status": "proved",
   "theorems": [
    "Tricorder.App.C88_reachable",
    "Tricorder.App.C88_calls",
    "Tricorder.App.C88_steps",
    "Tricorder.App.C88_requests"
   ],
   "note": "Spec/App says what an application is: trees of calls of the functions of Model/Api with results fed back, and handles passed between goroutines. C88_reachable, C88_steps, C88_calls, C88_requests. Goroutines that never end are covered through their finite beginnings. RegisterUpdateFunc and the event loops of groups are in Model/Group and Model/Whole."
  },
  {
   "property": "C89",
   "status": "proved",
   "theorems": [
    "Tricorder.App.C89_made",
    "Tricorder.App.C89_one_after_another",
    "Tricorder.App.C89_count",
    "Tricorder.C89_any_order",
    "Tricorder.C89_whole",
    "Tricorder.App.C89_sum_depends_on_order"
   ],
   "note": "Runs of whole applications (Spec/App) and of the model with event loops and update functions (Model/Whole); each method of a distribution is one step, justified by C74. C89_made and C89_one_after_another: at every moment a distribution is its calls applied one after another to a new one. C89_count sums over the goroutines. C89_any_order: any two orders; sum and average are excluded since C89_sum_depends_on_order shows two runs of one application with different Sums."
  },
  {
   "property": "C90",
   "status": "proved",
   "theorems": [
    "Tricorder.Whole.C90_listing",
    "Tricorder.Whole.C90_single",
    "Tricorder.Whole.C90_usage",
    "Tricorder.Whole.C90_memory"
   ],
   "note": "C90_listing and C90_single: for every group with a scalar in the answer there is one call of its update function, from its begin to its end, such that all scalars of the group carry its time, and are reported as if the program it executes (Does) had been executed in one step in the state in which it began; provided that program only uses variables that nobody else changes until the end of the run. Over the model of the whole library (Model/Whole). C90_usage and C90_memory: the two default groups, after the initialization of the package, with the update functions of setup.go; /proc/memory/unshared-stack is not in the table and the CPU times are as in C54. Lists and distributions are not scalars: see C70."
  },
  {
   "property": "C91",
   "status": "proved",
   "theorems": [
    "Tricorder.Whole.C91_html",
    "Tricorder.Whole.C91_text"
   ],
   "note": "Over the model of the whole library (Model/Whole), for every type of answers and every writer. C91_html: the page of a directory and of a single metric. C91_text: the page of a directory; for a single metric, which is read without a session, only that the value is one that the source had during the request (that it may be read after the group was released is C59_text_false). Distributions and lists are items whose text after the path is not described here; see C63 and C64 for that. ShowsOneCall contains both the moment of reading and the consequence for variables that only the update function changes, as in C90."
  },
  {
   "property": "C92",
   "status": "proved",
   "theorems": [
    "Tricorder.Whole.C92_generation",
    "Tricorder.Whole.C92_ranges",
    "Tricorder.Whole.C92_unchanged",
    "Tricorder.Whole.C92_cumulative",
    "Tricorder.Whole.C92_spoiled",
    "Tricorder.Whole.C92_emptied"
   ],
   "note": "Over the model of the whole library (Model/Whole). Both requests use the same encoding. The steps counted by C92_generation lie between the two moments at which the distribution was read (Between). An empty distribution reports generation 0 (C92_emptied), hence the condition that neither answer is empty. C92_spoiled: an Update that panics over an empty range changes the count of a range and the time stamp but not Generation, so the condition in C92_unchanged is needed; the documentation (\"incremented by 1 each time this distribution changes\") is wrong there. Fewer than 2^64 steps, so that no counter wraps."
  },
  {
   "property": "C93",
   "status": "proved",
   "theorems": [
    "Tricorder.Whole.C93_in_order",
    "Tricorder.Whole.C93_never_back",
    "Tricorder.Whole.C93_same_time",
    "Tricorder.Whole.C93_fresh",
    "Tricorder.Whole.C93_same_id"
   ],
   "note": "Over the model of the whole library (Model/Whole). Single values only (not lists, not distributions; C92 is about distributions). Both requests use the same encoding. C93_in_order, C93_never_back, C93_same_time and C93_fresh speak about the group (region) with which a metric is registered; C93_same_id about the GroupId that the client sees. A same metric is a same registered value (variable or callback with its unit and type)."
  },
  {
   "property": "C94",
   "status": "proved",
   "theorems": [
    "Tricorder.C94_text",
    "Tricorder.C94_unique",
    "Tricorder.C94_read",
    "Tricorder.C94_string",
    "Tricorder.C94_bytes",
    "Tricorder.C94_list",
    "Tricorder.C94_get"
   ],
   "note": "json.Marshal and json.Indent are modelled from JSON values to bytes (Model/JsonText); how floating point numbers are written is a parameter with the law NumLaw (a JSON number that rounds to the float), which exactNum_law shows to be satisfiable. The grammar and the values of texts are in Spec/JsonText, independent of the writer. C94_list and C94_get combine it with C66."
  },
  {
   "property": "C95",
   "status": "proved",
   "theorems": [
    "Tricorder.C95_metric",
    "Tricorder.C95_listing",
    "Tricorder.C95_run",
    "Tricorder.C95_get"
   ],
   "note": "Composes C66, C94 and C69 with a decoder from the values of texts (Model/Unmarshal): what is decoded is determined by the bytes alone, for every reading by the grammar; the parameters of C69 for strings and numbers are gone. Field names are matched exactly and a zero has no sign in the value of a text."
  },
  {
   "property": "C96",
   "status": "proved",
   "theorems": [
    "Tricorder.C96_metric",
    "Tricorder.C96_directory",
    "Tricorder.C96_safe"
   ],
   "note": "Tokens is a tokenizer for tags with quoted attributes, character references and text (Spec/Markup); it has no script, style or comment states, which no tag of the pages enters. C96_metric and C96_directory: pages that nothing else interferes with; C96_safe: any run, any writer, any prefix. html/template's contextual escaping is modelled by esc and urlNorm (as for C64)."
  },
  {
   "property": "C97",
   "status": "proved",
   "theorems": [
    "Tricorder.C97_page",
    "Tricorder.C97_metric",
    "Tricorder.C97_value",
    "Tricorder.C97_forge"
   ],
   "note": "PlainFmts is an assumption about strconv.FormatFloat (no newline, bar, comma, semicolon, parenthesis in its results). C97_value compares metrics of the same types and unit, which a script has to know; C97_forge is the counterexample for strings with newlines."
  },
  {
   "property": "C98",
   "status": "proved",
   "theorems": [
    "Tricorder.C98_list",
    "Tricorder.C98_get"
   ],
   "note": "Composition of C66, C67, C94 and C95 for one run. The compressor is a parameter with a left inverse on whole streams (hdec); metrics must be well typed, readable and finite, as for C95; the case that the handler panics is left to C66."
  },
  {
   "property": "C99",
   "status": "proved",
   "theorems": [
    "Tricorder.C99_listing",
    "Tricorder.C99_nothing_else",
    "Tricorder.C99_get",
    "Tricorder.C99_text",
    "Tricorder.C99_html"
   ],
   "note": "consults h is the list of own steps that read a variable, call a callback or ask a flag. A visit that panics (status not ok) has asked for a prefix of what it would have asked for. Calls made inside callbacks are outside the model."
  },
  {
   "property": "C100",
   "status": "proved",
   "theorems": [
    "Tricorder.C100_reachable",
    "Tricorder.C100_runs",
    "Tricorder.C100_isolated",
    "Tricorder.C100_untouched",
    "Tricorder.C100_shared",
    "Tricorder.C100_read_false",
    "Tricorder.C100_append_shows",
    "Tricorder.C100_reslice",
    "Tricorder.C100_append"
   ],
   "note": "Model/Alias: slices with array, offset, length and capacity; copies element by element as in the code. C100_reachable and C100_runs carry the other properties over. C100_isolated extends C37 to aliases and append; C100_shared says exactly what shows otherwise, C100_append_shows is a witness; C100_untouched: the library only makes new arrays. C100_read_false: ReadMyMetrics hands out the list's own slice, so isolation needs that the application does not write to slices it got from there; such writes are not among the steps of Alias.Run."
  },
  {
   "property": "C101",
   "status": "proved",
   "theorems": [
    "Tricorder.Whole.C101_moment",
    "Tricorder.Whole.C101_again",
    "Tricorder.Whole.C101_never_back",
    "Tricorder.Whole.C101_same_time",
    "Tricorder.Whole.C101_fresh",
    "Tricorder.Whole.C101_shared"
   ],
   "note": "Proved over the whole model (Model/Whole) for requests of any interleaving. The hypothesis that slices are copied is needed: C101_shared is an execution in which a []float64 was declared immutable, the application writes to it, and two answers have the same time stamp and different values. Both requests are in the same encoding; equality of values is for the same unit, since one list can be registered at two paths with different units and durations and times are converted to the unit in JSON."
  },
  {
   "property": "C102",
   "status": "proved",
   "theorems": [
    "Tricorder.C102_model",
    "Tricorder.C102_register",
    "Tricorder.C102_read",
    "Tricorder.C102_number",
    "Tricorder.C102_list",
    "Tricorder.C102_change",
    "Tricorder.C102_other"
   ],
   "note": "Proved for Model/Bits, in which the size of int is a parameter; C102_model shows that with 64 bits it is the model of the other properties. The lists' memory is assumed to hold values of the slices' element types that exist on the machine (CellOn). Group ids and lock counters, also ints, are not part of this property."
  },
  {
   "property": "C103",
   "status": "proved",
   "theorems": [
    "Tricorder.C103_listing",
    "Tricorder.C103_text",
    "Tricorder.C103_html",
    "Tricorder.C103_metric"
   ],
   "note": "Steps are the accesses to shared state that the model interleaves. One step may itself take time that grows with the depth of the tree (the path of a metric), the size of a directory (listing it), of a list or of a distribution (copying it); that is not counted. The bounds hold for requests that are cut off as well (panics, errors of the writer)."
  },
  {
   "property": "C104",
   "status": "proved",
   "theorems": [
    "Tricorder.Group.C104_group_silent",
    "Tricorder.Group.C104_group_hangs",
    "Tricorder.Group.C104_group_starves",
    "Tricorder.Group.C104_group_others",
    "Tricorder.Zero.C104_dist",
    "Tricorder.Zero.C104_list",
    "Tricorder.Zero.C104_dir"
   ],
   "note": "Model/Zero. A declared group is a region without an event loop; that nothing is sent or received on a nil channel is the language's rule. C104_group_others is a simulation: a run with declared groups has the events of a run of Model/Group (up to ids), so the safety properties C14–C19, C21 and C24 carry over. That registering in such a group succeeds is Model/Registry: registering does not look at the group. Lists and directories are models of their own here, with a slice and a map that may be absent; a nil pointer to a List is C37's model (reading panics)."
  },
  {
   "property": "C105",
   "status": "proved",
   "theorems": [
    "Tricorder.Whole.C105_flow",
    "Tricorder.Whole.C105_one_range"
   ],
   "note": "Over the model of the whole library (Model/Whole), with the hypotheses of C92 (AskedTwice) and ascending endpoints. Values are float64 numbers after conversion by the unit of the distribution (Spec.amount). The rounding of Sum is that of float64. Min and Max are in C92_cumulative."
  },
  {
   "property": "C106",
   "status": "proved",
   "theorems": [
    "Tricorder.Whole.C106_in_order",
    "Tricorder.Whole.C106_dist",
    "Tricorder.Whole.C106_flow",
    "Tricorder.Whole.C106_list",
    "Tricorder.Whole.C106_two_moments"
   ],
   "note": "Over the model of the whole library (Model/Whole). C106_in_order is for every finished listing; the time stamp of a scalar is not part of it (that is the one its group got, C72). C106_two_moments is a run in which the two entries differ."
  },
  {
   "property": "C107",
   "status": "proved",
   "theorems": [
    "Tricorder.Whole.C107_again",
    "Tricorder.Whole.C107_listed"
   ],
   "note": "For two metrics in two successive answers (C107_again) or one after the other in one listing (C107_listed) that show the same source. Hypotheses on the application: whenever the source gives a value, it is an integer of one type in the range of that type, and it does not fall; everything ever registered at the two paths shows this source. Function values may depend on the state; a function is taken to give what the World says at the moment of the call."
  },
  {
   "property": "C108",
   "status": "proved",
   "theorems": [
    "Tricorder.Whole.C108_again",
    "Tricorder.Whole.C108_listed",
    "Tricorder.Whole.C108_all_time",
    "Tricorder.Whole.C108_restart"
   ],
   "note": "C108_again for two answers, C108_listed for two entries of one listing. The moves are those of C105 between a moment of the first reading and a moment of the second. C108_restart is a run in which Min goes up because the distribution was empty for a moment; C108_all_time one in which Min stays although its value was removed. UpdateMinMax does nothing, so it is no move."
  },
  {
   "property": "C109",
   "status": "proved",
   "theorems": [
    "Tricorder.Whole.C109_text",
    "Tricorder.Whole.C109_html"
   ],
   "note": "C109_text and C109_html, about any finished request without error in a run of the whole library (Model/Whole); examples: both pages of the example of C91. Which moments the values of one group share is C91; how values look is C63 and C64."
  },
  {
   "property": "C110",
   "status": "proved",
   "theorems": [
    "Tricorder.Fine.C110_whole",
    "Tricorder.Fine.C110_quiet",
    "Tricorder.Fine.C110_every",
    "Tricorder.Fine.C110_returns"
   ],
   "note": "C110_whole, C110_quiet, C110_every and C110_returns, about Model/Fine, which runs the critical sections of Model/Locks and the event loops of Model/Group together; examples: a run in the middle of SetUnit, with a waiting Snapshot and a goroutine taking a group, and a finished run of Model/Whole. The outside world may depend on everything but fields behind locks (Local), as in C74. Fairness is not part of it."
  },
  {
   "property": "C111",
   "status": "proved",
   "theorems": [
    "Tricorder.Whole.C111_lines"
   ],
   "note": "C111_lines, about any finished text page, whatever its status, in a run of the whole library (Model/Whole); examples: a page on a connection that fails in the middle of the second line, and the complete page of C91. That the lines of a page without an error are complete and sorted is C109."
  },
  {
   "property": "C112",
   "status": "proved",
   "theorems": [
    "Tricorder.Whole.C112_items"
   ],
   "note": "C112_items, about any finished HTML page, whatever its status, in a run of the whole library (Model/Whole); examples: a page on a connection that fails in the middle of the second item, and the complete page of C91. The type of the elements of a list and the elements are read one after the other, in the same interval."
  },
  {
   "property": "C113",
   "status": "proved",
   "theorems": [
    "Tricorder.Whole.C113_page",
    "Tricorder.Whole.C113_again"
   ],
   "note": "C113_page and C113_again, about finished text pages in a run of the whole library (Model/Whole); examples: a page that shows 5 and 7 for a counter that is set to 7 between its lines, and two pages with 5 and 7. That numbers in RPC and JSON answers do not fall is C107."
  },
  {
   "property": "C114",
   "status": "proved",
   "theorems": [
    "Tricorder.Whole.C114_page",
    "Tricorder.Whole.C114_again"
   ],
   "note": "C114_page and C114_again, about finished HTML pages in a run of the whole library (Model/Whole); examples: a page that shows 5 and 7,000 for a counter that is set to 7000 between its items, and two pages with 5 and 7,000. With a unit the page shows the short form of C50; that the rounded numbers do not fall either comes from C115. Text pages: C113; RPC and JSON: C107."
  },
  {
   "property": "C115",
   "status": "proved",
   "theorems": [
    "Tricorder.C115_order",
    "Tricorder.C115_unique"
   ],
   "note": "C115_order for what valueToHtmlString returns, with FormOf (Spec/ShortOrder) as the meaning of a form, and C115_unique: a form has one meaning. How close it is to the integer is C50."
  },
  {
   "property": "C116",
   "status": "proved",
   "theorems": [
    "Tricorder.C116_order",
    "Tricorder.C116_unique",
    "Tricorder.C116_close",
    "Tricorder.C116_same",
    "Tricorder.C116_html"
   ],
   "note": "C116_order for PrettyFormat, with PrettyOf (Spec/PrettyOrder) as the meaning of a text, C116_unique: a text has one meaning, C116_close and C116_same: how far it is from the duration, and C116_html for what valueToHtmlString returns. The exact forms and what is cut off are C46."
  },
  {
   "property": "C117",
   "status": "proved",
   "theorems": [
    "Tricorder.Whole.C117_page",
    "Tricorder.Whole.C117_again"
   ],
   "note": "C117_page for one page and C117_again for two, with TimeTotal and TimesNotFalling (Spec/CounterTime); the order of the texts is that of C116. Types that are named after time.Duration are not shown as durations and are not part of it."
  },
  {
   "property": "C118",
   "status": "proved",
   "theorems": [
    "Tricorder.Whole.C118_page",
    "Tricorder.Whole.C118_again"
   ],
   "note": "C118_page for the lines of one page and C118_again for two pages of one metric each, with TotalAt, TotalIn and LinesNotFalling (Spec/CounterTimeText). The times are exact, so the order of the numbers is that of the times."
  }
 ]
}