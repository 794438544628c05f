{
 "claims": [
  {
   "property": "C01",
   "status": "proved",
   "theorems": [
    "Monkit.C01_counter_history",
    "Monkit.C01_counter_results"
   ],
   "note": ""
  },
  {
   "property": "C02",
   "status": "proved",
   "theorems": [
    "Monkit.C02_counter_stats"
   ],
   "note": ""
  },
  {
   "property": "C03",
   "status": "proved",
   "theorems": [
    "Go.Mutex.C03_mutex_linearizable",
    "Go.Mutex.C03_mutual_exclusion",
    "Go.Mutex.C03_no_deadlock",
    "Go.Mutex.C03_no_lost_update",
    "Monkit.Counter.C03_counter_no_lost_update"
   ],
   "note": "generic in the mutex-protected object, instantiated to Counter at the granularity of single field accesses"
  },
  {
   "property": "C04",
   "status": "proved",
   "theorems": [
    "Monkit.C04_dist_aggregates"
   ],
   "note": ""
  },
  {
   "property": "C05",
   "status": "proved",
   "theorems": [
    "Monkit.C05_reservoir_real"
   ],
   "note": ""
  },
  {
   "property": "C06",
   "status": "partial",
   "theorems": [
    "Monkit.C06_quantile_bounds_partial",
    "Monkit.C06_quantile_monotone_partial",
    "Monkit.C06_stats_report_partial",
    "Monkit.C06_quantile_bounds_violated"
   ],
   "note": "proved for reservoir values whose float32 rounding is back in int64 range; false for MaxInt64 on amd64, where int64(float32) overflows: witness C06_quantile_bounds_violated"
  },
  {
   "property": "C07",
   "status": "proved",
   "theorems": [
    "Monkit.C07_query_safe_and_stable",
    "Monkit.C07_query_index_in_range"
   ],
   "note": ""
  },
  {
   "property": "C08",
   "status": "partial",
   "theorems": [
    "Monkit.C08_reset_aggregates",
    "Monkit.C08_quantiles_depend_only_on_values_partial",
    "Monkit.C08_reset_violated"
   ],
   "note": "aggregates and later quantiles proved; the clause 'quantiles report zero' is false of the code: Query right after Reset returns a stale sample"
  },
  {
   "property": "C09",
   "status": "proved",
   "theorems": [
    "Monkit.C09_slot_choice",
    "Monkit.C09_slot_uniform",
    "Monkit.C09_replacement_rate"
   ],
   "note": ""
  },
  {
   "property": "C10",
   "status": "proved",
   "theorems": [
    "Monkit.C10_step_injective",
    "Monkit.C10_never_dies",
    "Monkit.C10_int63_nonneg"
   ],
   "note": ""
  },
  {
   "property": "C11",
   "status": "partial",
   "theorems": [
    "Monkit.C11_seed_live_partial",
    "Monkit.C11_seed1024_live_partial",
    "Monkit.C11_seeds_differ",
    "Monkit.C11_seed_zero_violated",
    "Monkit.C11_dead_sampler"
   ],
   "note": "proved for every non-zero seed; seed 0 gives the all-zero generator, witness given"
  },
  {
   "property": "C12",
   "status": "proved",
   "theorems": [
    "Monkit.C12_total_since_new",
    "Monkit.C12_total_since_reset",
    "Monkit.C12_total_since_setTotal",
    "Monkit.C12_tick_keeps_total"
   ],
   "note": ""
  },
  {
   "property": "C13",
   "status": "proved",
   "theorems": [
    "Monkit.C13_meter_report",
    "Monkit.C13_idle_tick",
    "Monkit.C13_rate_nonneg"
   ],
   "note": ""
  },
  {
   "property": "C14",
   "status": "proved",
   "theorems": [
    "Monkit.C14_diff_meter"
   ],
   "note": ""
  },
  {
   "property": "C15",
   "status": "proved",
   "theorems": [
    "Monkit.Timer.C15_timer_once"
   ],
   "note": ""
  },
  {
   "property": "C16",
   "status": "proved",
   "theorems": [
    "Monkit.BoolVal.C16_report_bounds",
    "Monkit.BoolVal.C16_final_counts",
    "Monkit.BoolVal.C16_stored_once",
    "Monkit.BoolVal.C16_only_observe_stores"
   ],
   "note": ""
  },
  {
   "property": "C17",
   "status": "proved",
   "theorems": [
    "Monkit.FuncStats.C17_accounting",
    "Monkit.FuncStats.C17_report",
    "Monkit.FuncStats.C17_times_report",
    "Monkit.FuncStats.C17_series_once"
   ],
   "note": ""
  },
  {
   "property": "C18",
   "status": "proved",
   "theorems": [
    "Monkit.Highwater.C18_current_count",
    "Monkit.Highwater.C18_current_in_progress",
    "Monkit.Highwater.C18_highwater_le",
    "Monkit.Highwater.C18_started_le_highwater",
    "Monkit.Highwater.C18_highwater_exact",
    "Monkit.Highwater.C18_highwater_monotone",
    "Monkit.Highwater.C18_start_returns"
   ],
   "note": ""
  },
  {
   "property": "C19",
   "status": "partial",
   "theorems": [
    "Monkit.Highwater.C19_nonneg_partial",
    "Monkit.Highwater.C19_nonneg_violated"
   ],
   "note": "proved when every Reset happens while nothing is being observed; false otherwise, witness given"
  },
  {
   "property": "C20",
   "status": "proved",
   "theorems": [
    "Monkit.FuncSet.C20_parents"
   ],
   "note": ""
  },
  {
   "property": "C21",
   "status": "proved",
   "theorems": [
    "Monkit.C21_bag_iterate",
    "Monkit.C21_children"
   ],
   "note": ""
  },
  {
   "property": "C22",
   "status": "proved",
   "theorems": [
    "Monkit.Spans.C22_root_spans"
   ],
   "note": ""
  },
  {
   "property": "C23",
   "status": "proved",
   "theorems": [
    "Monkit.Spans.C23_all_spans",
    "Monkit.Spans.C23_all_spans_single"
   ],
   "note": ""
  },
  {
   "property": "C24",
   "status": "proved",
   "theorems": [
    "Monkit.Spans.C24_finished_never_listed"
   ],
   "note": ""
  },
  {
   "property": "C25",
   "status": "partial",
   "theorems": [
    "Monkit.Spans.C25_always_visible_partial",
    "Monkit.Spans.C25_always_visible_violated"
   ],
   "note": "false of the code at instants when an ancestor has marked itself done and not yet orphaned its children; witness given; proved at all other instants, except when an ancestor is itself being started under a finished parent and not yet among the orphans"
  },
  {
   "property": "C26",
   "status": "proved",
   "theorems": [
    "Monkit.Spans.C26_orphaned_iff_parent_finished",
    "Monkit.Spans.C26_orphaned_only_if_parent_exiting",
    "Monkit.Spans.C26_orphaned_stable"
   ],
   "note": ""
  },
  {
   "property": "C27",
   "status": "proved",
   "theorems": [
    "Monkit.Spans.C27_span_count",
    "Monkit.Spans.C27_span_count_quiet"
   ],
   "note": "for spans whose start does not panic; see C118 and C119 for those whose start does"
  },
  {
   "property": "C28",
   "status": "proved",
   "theorems": [
    "Monkit.Ctx.C28_task_context",
    "Monkit.Ctx.C28_layers_do_not_accumulate",
    "Monkit.Ctx.C28_nested",
    "Monkit.Ctx.C28_reset"
   ],
   "note": ""
  },
  {
   "property": "C29",
   "status": "proved",
   "theorems": [
    "Monkit.Tasks.C29_task_child",
    "Monkit.Tasks.C29_task_root",
    "Monkit.Tasks.C29_reset_trace",
    "Monkit.Tasks.C29_remote_trace",
    "Monkit.Tasks.C29_reachable"
   ],
   "note": ""
  },
  {
   "property": "C30",
   "status": "partial",
   "theorems": [
    "Monkit.Calls.C30_panic_partial",
    "Monkit.Calls.C30_return",
    "Monkit.Calls.C30_panic_nil_violated",
    "Monkit.Calls.C30_nested_partial",
    "Monkit.Calls.C30_nested_violated"
   ],
   "note": "proved except for panic(nil) under the Go version of go.mod (1.19), which is recorded as success and swallowed, and for exit functions called from within a deferred closure instead of being deferred, which cannot see panics; both shown"
  },
  {
   "property": "C31",
   "status": "proved",
   "theorems": [
    "Monkit.Observers.C31_observers"
   ],
   "note": ""
  },
  {
   "property": "C32",
   "status": "proved",
   "theorems": [
    "Monkit.Watchers.C32_watchers"
   ],
   "note": ""
  },
  {
   "property": "C33",
   "status": "proved",
   "theorems": [
    "Monkit.AllTraces.C33_observe_all_traces"
   ],
   "note": ""
  },
  {
   "property": "C34",
   "status": "proved",
   "theorems": [
    "Monkit.Collector.C34_life_cycle"
   ],
   "note": ""
  },
  {
   "property": "C35",
   "status": "proved",
   "theorems": [
    "Monkit.Collector.C35_recorded",
    "Monkit.Collector.C35_spans"
   ],
   "note": "for collections in which no span finishes twice and ids are distinct; the forest is that of the recorded spans"
  },
  {
   "property": "C36",
   "status": "partial",
   "theorems": [
    "Monkit.Collector.C36_spans_terminates_partial",
    "Monkit.Collector.C36_spans_terminates_violated"
   ],
   "note": "proved when the collected spans have distinct ids; false otherwise (a recorded child with the matched span's id makes Spans recurse for ever), witness given"
  },
  {
   "property": "C37",
   "status": "partial",
   "theorems": [
    "Monkit.Id.C37_nonneg",
    "Monkit.Id.C37_distinct_partial",
    "Monkit.Id.C37_few_bad_seeds",
    "Monkit.Id.C37_at_most_twice",
    "Monkit.Id.C37_five_in_a_row",
    "Monkit.Id.C37_distinct_violated"
   ],
   "note": "ids are non-negative, any five in a row differ and no id is given more than twice in a full period; 'all distinct' is false: two ids of one process can collide for some seeds (witness given); proved for all other seeds"
  },
  {
   "property": "C38",
   "status": "proved",
   "theorems": [
    "Monkit.Tags.C38_set",
    "Monkit.Tags.C38_len",
    "Monkit.Tags.C38_immutable"
   ],
   "note": ""
  },
  {
   "property": "C39",
   "status": "proved",
   "theorems": [
    "Monkit.Tags.C39_series_name",
    "Monkit.Tags.C39_deterministic"
   ],
   "note": ""
  },
  {
   "property": "C40",
   "status": "partial",
   "theorems": [
    "Monkit.Tags.C40_injective_partial",
    "Monkit.Tags.C40_collect_partial",
    "Monkit.Tags.C40_injective_violated"
   ],
   "note": "proved when no backslash stands right before a comma, an equals sign, a space or the end of a name; false otherwise (backslashes are not escaped), witness given"
  },
  {
   "property": "C41",
   "status": "proved",
   "theorems": [
    "Monkit.Scope.C41_history",
    "Monkit.Scope.C41_same_object",
    "Monkit.Scope.C41_constructed_once",
    "Monkit.Scope.C41_panic_keeps_source",
    "Monkit.Scope.C41_kind_fixed",
    "Monkit.Scope.C41_exclusive",
    "Monkit.Scope.C41_no_deadlock"
   ],
   "note": ""
  },
  {
   "property": "C42",
   "status": "partial",
   "theorems": [
    "Monkit.Scope.C42_distinct_partial",
    "Monkit.Scope.C42_distinct_violated",
    "Monkit.Scope.C42_func_apart_partial",
    "Monkit.Scope.C42_func_prefix_violated"
   ],
   "note": "proved when names and tags do not contain the separators ',' and (in keys) '='; false otherwise, witnesses given; FuncNamed is disturbed only by sources of other kinds registered under a string that begins with func:"
  },
  {
   "property": "C43",
   "status": "proved",
   "theorems": [
    "Monkit.Scope.C43_gauge_replaces",
    "Monkit.Scope.C43_gauge_panics",
    "Monkit.Scope.C43_gauge_never_steals",
    "Monkit.Scope.C43_stats",
    "Monkit.Scope.C43_every_call",
    "Monkit.Scope.C43_chain_accumulates"
   ],
   "note": ""
  },
  {
   "property": "C44",
   "status": "proved",
   "theorems": [
    "Monkit.RegScopes.C44_history",
    "Monkit.RegScopes.C44_scope_named",
    "Monkit.RegScopes.C44_scopes"
   ],
   "note": ""
  },
  {
   "property": "C45",
   "status": "proved",
   "theorems": [
    "Monkit.Transform.C45_unaffected",
    "Monkit.Transform.C45_with",
    "Monkit.Transform.C45_new",
    "Monkit.Transform.C45_compose",
    "Monkit.Transform.C45_order",
    "Monkit.Transform.C45_pipeline",
    "Monkit.Transform.C45_transform_stat_source"
   ],
   "note": ""
  },
  {
   "property": "C46",
   "status": "proved",
   "theorems": [
    "Monkit.Delta.C46_stream",
    "Monkit.Delta.C46_passes_through",
    "Monkit.Delta.C46_telescopes",
    "Monkit.Delta.C46_series_independent",
    "Monkit.Delta.C46_float_exact",
    "Monkit.Delta.C46_concurrent_outputs",
    "Monkit.Delta.C46_concurrent_exchange",
    "Monkit.Delta.C46_concurrent_telescopes"
   ],
   "note": "a series is identified by its series name as in C39/C40; sums are exact differences, which float64 subtraction gives for whole numbers up to 2^52"
  },
  {
   "property": "C47",
   "status": "partial",
   "theorems": [
    "Monkit.Struct.C47_reports_partial",
    "Monkit.Struct.C47_not_struct",
    "Monkit.Struct.C47_panics_iff",
    "Monkit.Struct.C47_nil_ignored_violated",
    "Monkit.Struct.C47_names_partial",
    "Monkit.Struct.C47_blank_violated"
   ],
   "note": "proved when no nil pointer is met; the report panics exactly if one is, even in a field tagged ignore (witness given); structs in unexported fields are not entered; fields have names of their own unless a struct has several called _, which are all reported (C47_blank_violated)"
  },
  {
   "property": "C48",
   "status": "proved",
   "theorems": [
    "Monkit.ErrorNames.C48_precedence",
    "Monkit.ErrorNames.C48_one_name",
    "Monkit.ErrorNames.C48_rejecting_handlers",
    "Monkit.ErrorNames.C48_newest_wins",
    "Monkit.ErrorNames.C48_no_panic",
    "Monkit.ErrorNames.C48_naming_never_waits",
    "Monkit.ErrorNames.C48_builds"
   ],
   "note": "handlers are total functions of the error"
  },
  {
   "property": "C49",
   "status": "partial",
   "theorems": [
    "Monkit.Callers.C49_func_name",
    "Monkit.Callers.C49_func_name_general",
    "Monkit.Callers.C49_package_name",
    "Monkit.Callers.C49_package_is_import_path_partial",
    "Monkit.Callers.C49_package_slash_violated",
    "Monkit.Callers.C49_package_dot_violated",
    "Monkit.Callers.C49_inlined_unknown",
    "Monkit.Callers.C49_package_injective"
   ],
   "note": "function names proved; the package name is the import path if that has a slash and appears unescaped in symbol names; false otherwise ('main' gives '/main', 'gopkg.in/yaml.v2' gives 'gopkg.in/yaml%2ev2')"
  },
  {
   "property": "C50",
   "status": "partial",
   "theorems": [
    "Monkit.Headers.C50_round_trip_partial",
    "Monkit.Headers.C50_negative_violated",
    "Monkit.Headers.C50_sampling_only"
   ],
   "note": "proved for non-negative ids, which is all that monkit makes itself; false for negative ids, witness given"
  },
  {
   "property": "C51",
   "status": "proved",
   "theorems": [
    "Monkit.Headers.C51_accepted",
    "Monkit.Headers.C51_rejected",
    "Monkit.Headers.C51_absent",
    "Monkit.Headers.C51_all_or_none"
   ],
   "note": ""
  },
  {
   "property": "C52",
   "status": "partial",
   "theorems": [
    "Monkit.Headers.C52_imported",
    "Monkit.Headers.C52_round_trip_partial",
    "Monkit.Headers.C52_without_ids_violated"
   ],
   "note": "proved for requests that carry trace ids; baggage of a request without them is dropped, witness given"
  },
  {
   "property": "C53",
   "status": "partial",
   "theorems": [
    "Monkit.Wrap.C53_recorded_partial",
    "Monkit.Wrap.C53_last_code",
    "Monkit.Wrap.C53_first_code",
    "Monkit.Wrap.C53_twice_violated",
    "Monkit.Wrap.C53_flush_violated",
    "Monkit.Wrap.C53_informational_violated"
   ],
   "note": "proved when the handler calls WriteHeader at most once, with a final code, and before any body; false otherwise, witnesses given"
  },
  {
   "property": "C54",
   "status": "proved",
   "theorems": [
    "Monkit.Dot.C54_alphabet",
    "Monkit.Dot.C54_no_quote",
    "Monkit.Dot.C54_backslash",
    "Monkit.Dot.C54_lossless",
    "Monkit.Dot.C54_injective"
   ],
   "note": ""
  },
  {
   "property": "C55",
   "status": "proved",
   "theorems": [
    "Monkit.ListWriter.C55_list_writer",
    "Monkit.ListWriter.C55_success",
    "Monkit.ListWriter.C55_succeeds"
   ],
   "note": ""
  },
  {
   "property": "C56",
   "status": "partial",
   "theorems": [
    "Monkit.ListWriter.C56_stats_json_partial",
    "Monkit.ListWriter.C56_nan_violated",
    "Monkit.ListWriter.C56_unused_counter_violated",
    "Monkit.StatsJson.C56_marshal"
   ],
   "note": "proved when every statistic is a number; false otherwise: the document stops at the first NaN or infinity, and every unused Counter reports NaN"
  },
  {
   "property": "C57",
   "status": "proved",
   "theorems": [
    "Monkit.Path.C57_answer",
    "Monkit.Path.C57_segments",
    "Monkit.Path.C57_only_two",
    "Monkit.Path.C57_bad_request_iff"
   ],
   "note": "regexp.Compile, the registered functions and url.Parse are parameters; buffering and the presenters themselves are not part of this model"
  },
  {
   "property": "C58",
   "status": "proved",
   "theorems": [
    "Monkit.KeepAlive.C58_no_ping_after_stop",
    "Monkit.KeepAlive.C58_stop_result",
    "Monkit.KeepAlive.C58_after_failure",
    "Monkit.KeepAlive.C58_cancels",
    "Monkit.KeepAlive.C58_cancelled_only_if_failed",
    "Monkit.KeepAlive.C58_no_panic",
    "Monkit.KeepAlive.C58_progress",
    "Monkit.KeepAlive.C58_returns"
   ],
   "note": "a ping that panics with nil counts as success under go 1.19; a ping that ends its goroutine by runtime.Goexit leaves the mutex locked, and is a ping that never returns in the model"
  },
  {
   "property": "C59",
   "status": "partial",
   "theorems": [
    "Monkit.Svg.C59_bars_partial",
    "Monkit.Svg.C59_lines_partial",
    "Monkit.Svg.C59_instant_violated",
    "Monkit.Svg.C59_long_violated",
    "Monkit.Svg.C59_zero_violated"
   ],
   "note": "proved for spans that together take some time and less than 88 days; drawing panics if they take no time and bars leave the picture beyond 88 days, and it never ends for a span whose id and remote parent are both 0, witnesses given"
  },
  {
   "property": "C60",
   "status": "partial",
   "theorems": [
    "Monkit.Runtime.C60_exact",
    "Monkit.Runtime.C60_report",
    "Monkit.Runtime.C60_grows_partial",
    "Monkit.Runtime.C60_same_violated"
   ],
   "note": "proved if a garbage collection happens between any two readings; false otherwise: the last number of collections is never remembered, so every reading enters the latest pause again, witness given"
  },
  {
   "property": "C61",
   "status": "partial",
   "theorems": [
    "Monkit.Monotime.C61_exact_partial",
    "Monkit.Monotime.C61_monotone_partial",
    "Monkit.Monotime.C61_overflow_violated"
   ],
   "note": "proved until the counter difference times 10^9 exceeds 2^63, which is after 922 s at 10 MHz; false afterwards, witness given"
  },
  {
   "property": "C62",
   "status": "proved",
   "theorems": [
    "Monkit.Spin.C62_mutual_exclusion",
    "Monkit.Spin.C62_is_mutex",
    "Monkit.Spin.C62_free_can_be_taken",
    "Monkit.Spin.C62_progress"
   ],
   "note": "sync/atomic operations are taken to be indivisible and sequentially consistent; no fairness is claimed"
  },
  {
   "property": "C63",
   "status": "partial",
   "theorems": [
    "Monkit.TaskFunc.C63_func_task",
    "Monkit.TaskFunc.C63_users_not_dispatched",
    "Monkit.TaskFunc.C63_not_a_task",
    "Monkit.TaskFunc.C63_no_side_effects",
    "Monkit.TaskFunc.C63_same_func",
    "Monkit.TaskFunc.C63_looked_up_once",
    "Monkit.TaskFunc.C63_after_run_partial",
    "Monkit.TaskFunc.C63_fresh_violated",
    "Monkit.TaskFunc.C63_failed_lookup"
   ],
   "note": "proved for Func.Task, TaskNamed and ResetTrace, and for Scope.Task once it has run; Func() on a Scope.Task that has not run panics, witness given"
  },
  {
   "property": "C64",
   "status": "partial",
   "theorems": [
    "Monkit.Calls.C64_accounting_partial",
    "Monkit.Calls.C64_panic_nil_violated"
   ],
   "note": "proved for all programs of monitored calls without panic(nil) (or with its meaning since Go 1.21); false with it, witness given"
  },
  {
   "property": "C65",
   "status": "proved",
   "theorems": [
    "Monkit.Locks.C65_locks_no_deadlock",
    "Monkit.Spans.C65_span_progress",
    "Monkit.Spans.C65_span_completion"
   ],
   "note": ""
  },
  {
   "property": "C66",
   "status": "partial",
   "theorems": [
    "Monkit.C66_full_average_bounds",
    "Monkit.C66_reservoir_average_partial",
    "Monkit.C66_reservoir_average_error_partial",
    "Monkit.C66_report_partial",
    "Monkit.C66_reservoir_average_violated",
    "Monkit.C66_float_average_partial",
    "Monkit.C66_float_reservoir_average_partial",
    "Monkit.C66_float_average_violated",
    "Monkit.C66_float_reservoir_average_violated"
   ],
   "note": "IntDist and DurationDist: FullAverage proved; the ReservoirAverage clause is false of the code (float32 accumulation), witness given; proved while the float32 sums are exact, and with an error bound otherwise. FloatDist: both averages are false of the code (rounding, overflow to infinity), witnesses given; proved while the sums are exact"
  },
  {
   "property": "C67",
   "status": "partial",
   "theorems": [
    "Monkit.C67_float_dist_partial",
    "Monkit.C67_quantiles_partial",
    "Monkit.C67_report",
    "Monkit.C67_nan_violated",
    "Monkit.C67_large_violated"
   ],
   "note": "false of the code in two ways: Low and High stay NaN if the first value is NaN (C67_nan_violated), and values beyond the range of float32 make quantiles infinite or NaN (C67_large_violated). Proved for all float64 values, infinities and NaN included: Count, Sum, Recent and the report; Low and High unless the first value is NaN; quantiles when all values fit a float32, and otherwise, without NaN, that a quantile is NaN or within bounds"
  },
  {
   "property": "C68",
   "status": "proved",
   "theorems": [
    "Monkit.Val.C68_val_concurrent",
    "Monkit.FloatVal.C68_float_val_concurrent"
   ],
   "note": "for FloatVal: all float64 values, with quantiles as in C67"
  },
  {
   "property": "C69",
   "status": "partial",
   "theorems": [
    "Monkit.Headers.C69_linked_partial",
    "Monkit.Headers.C69_linked_violated",
    "Monkit.Headers.C69_unsampled",
    "Monkit.Headers.C69_chain"
   ],
   "note": "proved when the client's request span has no parent; otherwise the id of its parent is sent and the server's span becomes its sibling, witness given"
  },
  {
   "property": "C70",
   "status": "partial",
   "theorems": [
    "Monkit.Svg.C70_rows_partial",
    "Monkit.Svg.C70_rows_violated"
   ],
   "note": "proved for spans that run within their parents; false otherwise, witness given"
  },
  {
   "property": "C71",
   "status": "partial",
   "theorems": [
    "Monkit.TraceVals.C71_get",
    "Monkit.TraceVals.C71_calls",
    "Monkit.TraceVals.C71_get_all",
    "Monkit.TraceVals.C71_panic_blocks",
    "Monkit.TraceVals.C71_panics_only_unhashable",
    "Monkit.TraceVals.C71_progress_partial",
    "Monkit.TraceVals.C71_blocks_violated"
   ],
   "note": "values are exact for every history; calls always return only as long as no unhashable key is given: Get or Set with such a key panics with the mutex held, and every later Get, Set, GetAll and observer cancel blocks, witness given"
  },
  {
   "property": "C72",
   "status": "proved",
   "theorems": [
    "Monkit.Annotations.C72_calls",
    "Monkit.Annotations.C72_snapshot",
    "Monkit.Annotations.C72_all_kept"
   ],
   "note": ""
  },
  {
   "property": "C73",
   "status": "proved",
   "theorems": [
    "Monkit.Present.C73_walk",
    "Monkit.Present.C73_text",
    "Monkit.Present.C73_dot",
    "Monkit.Present.C73_unambiguous"
   ],
   "note": "what the accessors of spans return is an input of the model; Children is C20/C21"
  },
  {
   "property": "C74",
   "status": "proved",
   "theorems": [
    "Monkit.Present.C74_dot",
    "Monkit.Present.C74_text",
    "Monkit.Present.C74_total"
   ],
   "note": "the text of formatDist is an input of the model"
  },
  {
   "property": "C75",
   "status": "partial",
   "theorems": [
    "Monkit.Present.C75_spans_text",
    "Monkit.Present.C75_spans_dot",
    "Monkit.Present.C75_funcs_dot",
    "Monkit.Present.C75_funcs_text_partial",
    "Monkit.Present.C75_funcs_text_violated"
   ],
   "note": "proved for SpansText, SpansDot and FuncsDot with every writer; FuncsText forgets an error that happens while it lists callers, witness given; proved for writers that stay broken, as the one FromRequest uses"
  },
  {
   "property": "C76",
   "status": "proved",
   "theorems": [
    "Monkit.Buffered.C76_complete",
    "Monkit.Buffered.C76_prefix",
    "Monkit.Buffered.C76_failure_reported",
    "Monkit.Buffered.C76_succeeds",
    "Monkit.Buffered.C76_error_drops_buffer",
    "Monkit.Buffered.C76_listing"
   ],
   "note": "when a presenter fails, up to 4096 bytes it wrote before are dropped (C76_error_drops_buffer)"
  },
  {
   "property": "C77",
   "status": "partial",
   "theorems": [
    "Monkit.Buffered.C77_lag_partial",
    "Monkit.Buffered.C77_pings_violated"
   ],
   "note": "false through FromRequest: the newlines go into a buffer of 4096 bytes, so a client gets nothing for the first 34 hours; proved: the client lags at most 4096 newlines behind"
  },
  {
   "property": "C78",
   "status": "partial",
   "theorems": [
    "Monkit.SvgText.C78_no_markup",
    "Monkit.SvgText.C78_lossless",
    "Monkit.SvgText.C78_text",
    "Monkit.SvgText.C78_script_partial",
    "Monkit.SvgText.C78_script_violated",
    "Monkit.SvgText.C78_declaration",
    "Monkit.SvgText.C78_drawn",
    "Monkit.SvgText.C78_drawn_script_partial"
   ],
   "note": "no markup can be injected (proved for all byte strings), but an apostrophe ends the string literal in the mouse handler, so names and arguments can run script, witness given; the XML declaration is misplaced once a keep-alive newline was written"
  },
  {
   "property": "C79",
   "status": "proved",
   "theorems": [
    "Monkit.C79_copy_same",
    "Monkit.C79_copy_continues"
   ],
   "note": ""
  },
  {
   "property": "C80",
   "status": "proved",
   "theorems": [
    "Monkit.C80_int_exact",
    "Monkit.C80_seconds",
    "Monkit.C80_counter",
    "Monkit.C80_report"
   ],
   "note": "C80_report leaves out values of 2^63 - 2^38 and more, for which quantiles are not defined by Go (C06)"
  },
  {
   "property": "C81",
   "status": "proved",
   "theorems": [
    "Monkit.Ticker.C81_one_goroutine",
    "Monkit.Ticker.C81_round",
    "Monkit.Ticker.C81_at_most_once",
    "Monkit.Ticker.C81_progress"
   ],
   "note": "time.Sleep may take any time; that each round comes about every second is the scheduler's business"
  },
  {
   "property": "C82",
   "status": "proved",
   "theorems": [
    "Monkit.MeterConc.C82_meter_concurrent",
    "Monkit.MeterConc.C82_no_mark_lost"
   ],
   "note": ""
  },
  {
   "property": "C83",
   "status": "proved",
   "theorems": [
    "Monkit.CasSafe.C83_atomic",
    "Monkit.CasSafe.C83_one_winner"
   ],
   "note": ""
  },
  {
   "property": "C84",
   "status": "proved",
   "theorems": [
    "Monkit.StructVal.C84_latest"
   ],
   "note": "nil pointers inside the struct panic, see C47"
  },
  {
   "property": "C85",
   "status": "proved",
   "theorems": [
    "Monkit.FindSpan.C85_returns_only",
    "Monkit.FindSpan.C85_asked",
    "Monkit.FindSpan.C85_asked_no_more",
    "Monkit.FindSpan.C85_returns"
   ],
   "note": "attaching the finder to traces is C33's business; a nil matcher, with which FindSpan returns at once, is not modelled"
  },
  {
   "property": "C86",
   "status": "proved",
   "theorems": [
    "Monkit.Remote.C86_no_crash",
    "Monkit.Remote.C86_one_trace",
    "Monkit.Remote.C86_trace",
    "Monkit.Remote.C86_matcher",
    "Monkit.Remote.C86_error",
    "Monkit.Remote.C86_returns",
    "Monkit.Remote.C86_wakes",
    "Monkit.Remote.C86_panic",
    "Monkit.Remote.C86_panic_waits"
   ],
   "note": "the matcher is a function of the span; callbacks return or panic (C104 has callbacks that start spans). C86_panic_waits is a consequence one may not expect: a request whose callback panicked has marked a trace and goes on waiting"
  },
  {
   "property": "C87",
   "status": "proved",
   "theorems": [
    "Monkit.WatchSpans.C87_result",
    "Monkit.WatchSpans.C87_error",
    "Monkit.WatchSpans.C87_detached",
    "Monkit.WatchSpans.C87_returns"
   ],
   "note": "hypotheses: no span finishes twice and the finished spans have different ids, for which see C36 and C37"
  },
  {
   "property": "C88",
   "status": "partial",
   "theorems": [
    "Monkit.CollectSpans.C88_result",
    "Monkit.CollectSpans.C88_inert_partial",
    "Monkit.CollectSpans.C88_detached_violated"
   ],
   "note": "false as stated: CollectSpans never cancels its ObserveSpans, so every call leaves one more collector registered with the trace (violated); proved: the result is right, and the collector left behind is inert"
  },
  {
   "property": "C89",
   "status": "partial",
   "theorems": [
    "Monkit.EndLock.C89_panicking_handler_violated",
    "Monkit.EndLock.C89_panicking_handler_happens",
    "Monkit.EndLock.C89_reading_handler_violated",
    "Monkit.EndLock.C89_returns_partial"
   ],
   "note": "false as stated: end() calls the handlers with the mutex held and without defer, so a panicking handler leaves it locked for ever and a handler reading the Func's statistics waits for itself (violated); proved for handlers that return and do not use the Func"
  },
  {
   "property": "C90",
   "status": "proved",
   "theorems": [
    "Monkit.JsonDocs.C90_spans",
    "Monkit.JsonDocs.C90_finished",
    "Monkit.JsonDocs.C90_funcs",
    "Monkit.JsonDocs.C90_after_newlines",
    "Monkit.JsonDocs.C90_text"
   ],
   "note": "encoding/json is modelled for null, booleans, integers, strings, lists and maps; %#v of arguments is a parameter"
  },
  {
   "property": "C91",
   "status": "partial",
   "theorems": [
    "Monkit.StatsText.C91_lines_partial",
    "Monkit.StatsText.C91_recover_partial",
    "Monkit.StatsText.C91_write_errors",
    "Monkit.StatsText.C91_newline_violated"
   ],
   "note": "false as stated: newlines in names are not escaped, so one statistic can be presented as two (violated); proved for names without newlines; negative zero is not in the model"
  },
  {
   "property": "C92",
   "status": "partial",
   "theorems": [
    "Monkit.Http.C92_bad_request",
    "Monkit.Http.C92_not_found",
    "Monkit.Http.C92_error_text",
    "Monkit.Http.C92_result_partial",
    "Monkit.Http.C92_trace_partial",
    "Monkit.Http.C92_failure_violated",
    "Monkit.Http.C92_index_partial",
    "Monkit.Http.C92_index_violated"
   ],
   "note": "false as stated: the error of the presenter is ignored, so a failed document (statistics with NaN as JSON) is answered with status 200 and an empty or truncated body, and the index page links to /stats/svg, which is answered with 404 (violated); proved for presenters that succeed and the other links"
  },
  {
   "property": "C93",
   "status": "proved",
   "theorems": [
    "Monkit.TraceQuery.C93_no_interleaving",
    "Monkit.TraceQuery.C93_output",
    "Monkit.TraceQuery.C93_spans",
    "Monkit.TraceQuery.C93_error",
    "Monkit.TraceQuery.C93_no_document_after_failure",
    "Monkit.TraceQuery.C93_gives_up"
   ],
   "note": "hypotheses of C93_spans as in C87; the pieces of the document are a parameter, see C55, C73-C75 and C90; buffering (C76, C77) comes between"
  },
  {
   "property": "C94",
   "status": "partial",
   "theorems": [
    "Monkit.ProcFs.C94_no_panic",
    "Monkit.ProcFs.C94_stat_partial",
    "Monkit.ProcFs.C94_right_or_absent",
    "Monkit.ProcFs.C94_statm",
    "Monkit.ProcFs.C94_name_violated",
    "Monkit.Rusage.C94_rusage"
   ],
   "note": "false as stated: a process whose name has white space in it gets no proc_stat statistics at all, because Sscanf reads the name up to the space (violated); proved for other names, and that never a wrong value is reported for names of at most 64 characters"
  },
  {
   "property": "C95",
   "status": "proved",
   "theorems": [
    "Monkit.ProcStats.C95_read_once",
    "Monkit.ProcStats.C95_reports",
    "Monkit.ProcStats.C95_same_checksum",
    "Monkit.ProcStats.C95_fds",
    "Monkit.ProcStats.C95_fds_error"
   ],
   "note": "hash/crc32 is a parameter; sync.Once and Readdirnames by their contracts"
  },
  {
   "property": "C96",
   "status": "partial",
   "theorems": [
    "Monkit.Colour.C96_right",
    "Monkit.Colour.C96_chosen_partial",
    "Monkit.Colour.C96_one_colour",
    "Monkit.Colour.C96_cycle_violated",
    "Monkit.Colour.C96_standard_wrapping_violated"
   ],
   "note": "false as stated: errors whose WrappedErr methods form a circle are unwrapped for ever and the picture is never drawn (violated), and a cancelled context wrapped by fmt.Errorf's %w is shown as any other error (violated); proved for chains of WrappedErr that end"
  },
  {
   "property": "C97",
   "status": "partial",
   "theorems": [
    "Monkit.Spans.C97_root_spans",
    "Monkit.Spans.C97_all_spans_alive",
    "Monkit.Spans.C97_all_spans_partial",
    "Monkit.Spans.C97_missed_violated",
    "Monkit.Spans.C97_twice_violated"
   ],
   "note": "false as stated: AllSpans misses a span whose parent finishes after the orphans were read, and visits a span twice whose parent finishes between the readings of roots and orphans (violated); proved for spans whose ancestors, up to one whose parent had finished before, also run during the whole call; RootSpans proved"
  },
  {
   "property": "C98",
   "status": "partial",
   "theorems": [
    "Monkit.FuncConc.C98_order",
    "Monkit.FuncConc.C98_report",
    "Monkit.FuncConc.C98_progress",
    "Monkit.FuncConc.C98_current",
    "Monkit.FuncConc.C98_highwater_partial",
    "Monkit.FuncConc.C98_highwater_violated"
   ],
   "note": "false in one part: a report that reads both numbers while a start has added to current and not yet raised highwater has current 1 and highwater 0 (violated); current at most highwater is proved for reports during which no start is in progress; the rest is proved in full"
  },
  {
   "property": "C99",
   "status": "partial",
   "theorems": [
    "Monkit.TraceHttp.C99_handler",
    "Monkit.TraceHttp.C99_span",
    "Monkit.TraceHttp.C99_annotations",
    "Monkit.TraceHttp.C99_told",
    "Monkit.TraceHttp.C99_end_partial",
    "Monkit.TraceHttp.C99_callback_partial",
    "Monkit.TraceHttp.C99_panic_nil_violated",
    "Monkit.TraceHttp.C99_panic_code_violated",
    "Monkit.TraceHttp.C99_observer_value_violated",
    "Monkit.TraceHttp.C99_hijack_violated",
    "Monkit.TraceHttp.C99_callback_violated",
    "Monkit.TraceHttp.C99_callback_returns",
    "Monkit.TraceHttp.C99_callback_panic_partial",
    "Monkit.TraceHttp.C99_callback_panic_violated"
   ],
   "note": "false in six parts: a callback that panics while someone is waiting at /trace/remote leaves a span that never finishes; values that span observers add to the context do not reach the handler, which gets the span itself as its context; the handler's writer cannot be hijacked even if the given one can; the status code is not recorded if the handler panics; with someone waiting at /trace/remote the callback is called twice for one trace, and it is called for traces that are not sampled; panic(nil) is swallowed in modules of before Go 1.21 (all violated); the rest is proved in full"
  },
  {
   "property": "C100",
   "status": "partial",
   "theorems": [
    "Monkit.TraceHttp.C100_once_partial",
    "Monkit.TraceHttp.C100_headers",
    "Monkit.TraceHttp.C100_served",
    "Monkit.TraceHttp.C100_nil_header_violated",
    "Monkit.TraceHttp.C100_panic_nil_violated"
   ],
   "note": "false for a request with a nil Header in a sampled trace, which panics before it is sent, and for panic(nil) of the client in modules of before Go 1.21 (both violated); C100_served has the ids not negative (see C50) and the parent that the client's headers name (see C69)"
  },
  {
   "property": "C101",
   "status": "partial",
   "theorems": [
    "Monkit.TagsConc.C101_later_partial",
    "Monkit.TagsConc.C101_first_alone_partial",
    "Monkit.TagsConc.C101_pointer_first_partial",
    "Monkit.TagsConc.C101_violated"
   ],
   "note": "false: String fills its cache without synchronisation; if the length of the cached string is written before its pointer, a concurrent call returns a string with a length and no bytes (violated, for every set with a tag). Proved: every call after one that returned the right string is right; all are right if the first call returned before the others were made; all are right where the pointer is always written first. Word accesses are taken to be sequentially consistent"
  },
  {
   "property": "C102",
   "status": "proved",
   "theorems": [
    "Monkit.Report.C102_report",
    "Monkit.Report.C102_names"
   ],
   "note": "a critical section is one step (C03, C41 and C44 are about the locks); one kind of source; gauges and chained sources are the subject of C43; what each kind reports of what was recorded in it is the subject of the claims on that kind"
  },
  {
   "property": "C103",
   "status": "partial",
   "theorems": [
    "Monkit.DiffConc.C103_two_moments_partial",
    "Monkit.DiffConc.C103_one_moment_partial",
    "Monkit.DiffConc.C103_violated"
   ],
   "note": "false of the code: DiffMeter.Stats locks one meter after the other (meter.go:177-178), so the difference may be one there never was: C103_violated. Proved: what holds of every report, and the claim for reports during which one of the two meters is left alone"
  },
  {
   "property": "C104",
   "status": "partial",
   "theorems": [
    "Monkit.RemoteCb.C104_starts_return_partial",
    "Monkit.RemoteCb.C104_others_never_wait_partial",
    "Monkit.RemoteCb.C104_violated"
   ],
   "note": "false of the code: present/path.go:239-246 calls the callback stored in the trace with traceMtx held, and every matching span locks traceMtx when it starts: C104_violated. Proved: the claim for callbacks that start only spans that do not match, and for spans that do not match. Callbacks are sequences of span starts; panics in them are not modelled"
  },
  {
   "property": "C105",
   "status": "partial",
   "theorems": [
    "Monkit.QuantileLock.C105_no_panic_partial",
    "Monkit.QuantileLock.C105_returns_partial",
    "Monkit.QuantileLock.C105_panic_violated",
    "Monkit.QuantileLock.C105_nan_violated"
   ],
   "note": "false of the code: val.go:63-68 unlocks without defer, and intdist.go:148-151 indexes with int(NaN): C105_nan_violated (amd64, where that is the smallest integer), and C105_panic_violated: after any panic no call returns. Proved: no panic and every call can return when every quantile is a float64 number or NaN converts to zero."
  },
  {
   "property": "C106",
   "status": "partial",
   "theorems": [
    "Monkit.RuntimeConc.C106_one_at_a_time_partial",
    "Monkit.RuntimeConc.C106_count_violated",
    "Monkit.RuntimeConc.C106_rmin_violated"
   ],
   "note": "false of the code: environment/runtime.go:31-53 shares durDist between reports without a lock: C106_count_violated (Count read once by the compiler: a pause is lost) and C106_rmin_violated (read twice: an empty slot is counted). Proved for reports that do not overlap. Accesses are atomic and seen in one order; durDist.Stats is one step"
  },
  {
   "property": "C107",
   "status": "partial",
   "theorems": [
    "Monkit.Calls.C107_finished_partial",
    "Monkit.Calls.C107_success_violated"
   ],
   "note": "false of the code: ctx.go:114 tells a panic by recover, which gives nil during runtime.Goexit: C107_success_violated. Proved: the Goexit goes on, all spans finish, no orphans, current 0, span counts 0. panic(nil) under its old meaning excluded as in C64"
  },
  {
   "property": "C108",
   "status": "partial",
   "theorems": [
    "Monkit.Env.C108_report_partial",
    "Monkit.Env.C108_env_violated",
    "Monkit.Env.C108_twice_violated"
   ],
   "note": "false of the code: environment/env.go:25-31 documents the scope env but uses registry.Package(), the import path (C108_env_violated), and nothing keeps Register from attaching all again (C108_twice_violated). Proved: what a report contains after any calls. Chained sources only; one goroutine"
  },
  {
   "property": "C109",
   "status": "proved",
   "theorems": [
    "Returns.C109_returned",
    "Monkit.RegScopes.C109_scopes",
    "Monkit.FuncSet.C109_parents",
    "Monkit.Watchers.C109_watchers",
    "Monkit.AllTraces.C109_all_traces",
    "Monkit.Collector.C109_collector",
    "Go.Mutex.C109_mutex",
    "Monkit.BoolVal.C109_boolval",
    "Monkit.Delta.C109_delta",
    "Monkit.DiffConc.C109_diffmeter",
    "Monkit.TagsConc.C109_tags",
    "Monkit.Annotations.C109_annotations",
    "Monkit.Scope.C109_scope",
    "Monkit.Report.C109_report",
    "Monkit.TaskFunc.C109_task",
    "Monkit.Highwater.C109_counters",
    "Monkit.Observers.C109_observers"
   ],
   "note": "From every reachable state, for any number of goroutines: a bound on the steps of any schedule without new calls, and no deadlock. The lock-free retry loops are included. Callbacks and Stats functions given by the user are single steps"
  },
  {
   "property": "C110",
   "status": "proved",
   "theorems": [
    "Monkit.Args.C110_listing",
    "Monkit.Args.C110_svg",
    "Monkit.Args.C110_json",
    "Monkit.Args.C110_injective",
    "Monkit.Args.C110_one_line"
   ],
   "note": "strconv.Quote (with its tables of printable characters above U+00FF as a parameter) and hex.EncodeToString are modelled in Go/Quote. Arguments of other types are written by fmt or time, whose texts are parameters"
  },
  {
   "property": "C111",
   "status": "proved",
   "theorems": [
    "Monkit.C111_fair",
    "Monkit.C111_kept",
    "Monkit.C111_recent",
    "Monkit.C111_moving",
    "Monkit.C111_float"
   ],
   "note": "the generator is replaced by a tape, and means are taken over all tapes; the actual xorshift generator is deterministic, and that its outputs behave like independent uniform numbers is an assumption. Draws range over a multiple of the width (Balanced): all 64 bit numbers if the width is a power of two"
  },
  {
   "property": "C112",
   "status": "proved",
   "theorems": [
    "Monkit.C112_query",
    "Monkit.C112_report",
    "Monkit.C112_few",
    "Monkit.C112_float"
   ],
   "note": "for values whose float32 rounding fits the value type; the others are the subject of C06 and C67"
  },
  {
   "property": "C113",
   "status": "proved",
   "theorems": [
    "Monkit.C113_full_average",
    "Monkit.C113_empty",
    "Monkit.C113_float_full_average",
    "Monkit.C113_float_reservoir_average",
    "Monkit.C113_report",
    "Monkit.C113_float_report"
   ],
   "note": "complements C66, which is about averages lying within the data. For integer kinds the bound on ravg needs values of magnitude at most 2^62, for floats at most 2^100"
  },
  {
   "property": "C114",
   "status": "proved",
   "theorems": [
    "Monkit.StatsJson.C114_document",
    "Monkit.StatsJson.C114_apart",
    "Monkit.StatsJson.C114_integers"
   ],
   "note": "the digits of a float64 are chosen by strconv, which is not part of the code: they are a parameter with the contract that they are rounded back to that float64; that such digits exist for every float64 is proved (chosen_exists). Negative zero is not in the model. What happens with NaN and infinities is C56"
  },
  {
   "property": "C115",
   "status": "proved",
   "theorems": [
    "Monkit.Whole.C115_listed",
    "Monkit.Whole.C115_parents",
    "Monkit.Whole.C115_report",
    "Monkit.Whole.C115_current",
    "Monkit.Whole.C115_all_spans",
    "Monkit.Whole.C115_accounting",
    "Monkit.Whole.C115_progress"
   ],
   "note": "for functions that are not reset and for fewer than 2^63 calls; the steps are those of the models of spans (C22-C27, C65) and of the statistics (C98), in the order of ctx.go; parents.Add is one step here (C20 and funcset.go have its own locks). Whose child a call is, is given (C28 and C29 are about contexts); observers are C31"
  },
  {
   "property": "C116",
   "status": "partial",
   "theorems": [
    "Monkit.Clock.C116_exact_partial",
    "Monkit.Clock.C116_nested",
    "Monkit.Clock.C116_log",
    "Monkit.Clock.C116_concurrent",
    "Monkit.Clock.C116_windows_recorded_partial",
    "Monkit.Clock.C116_windows_measured_partial",
    "Monkit.Clock.C116_windows_violated"
   ],
   "note": "false on Windows: timer.go:65 and span.go:65 take the end from time.Since, Go's own clock, and the start from monotime.Now, the performance counter, so a timer can say that less than nothing has passed (C116_windows_violated). Proved: everything elsewhere; on Windows the clauses about recorded durations until the overflow of C61, and that timers and spans are off by at most twice what the clocks are off. Times have their monotonic reading; the wall clock is not in the model"
  },
  {
   "property": "C117",
   "status": "partial",
   "theorems": [
    "Monkit.Attach.C117_present_partial",
    "Monkit.Attach.C117_future",
    "Monkit.Attach.C117_published",
    "Monkit.Attach.C117_stays",
    "Monkit.Attach.C117_starting_violated",
    "Monkit.Attach.C117_running_violated"
   ],
   "note": "false of the code: a trace whose first span is being started during the call can look for watchers before the callback is published and be listed after the root spans were copied; the collector is then never attached (C117_starting_violated). A span that runs throughout the call is missed if an ancestor is half way through its exit (C117_running_violated, the gap of C25). Proved: traces that begin after the callback is published, and spans that run throughout the call with no ancestor half way through its start or exit at the moment the orphans are copied"
  },
  {
   "property": "C118",
   "status": "partial",
   "theorems": [
    "Monkit.Clash.C118_crash_partial",
    "Monkit.Clash.C118_no_clash_partial",
    "Monkit.Clash.C118_result",
    "Monkit.Clash.C118_crash_violated",
    "Monkit.ClashStruct.C118_struct_partial",
    "Monkit.ClashStruct.C118_torn_violated",
    "Monkit.ClashTask.C118_task_partial",
    "Monkit.ClashTask.C118_task_violated"
   ],
   "note": "false of the code: the message is made with %#v from the source, without its lock. If the source is a Func and a call of it ends with an error meanwhile, Go's runtime ends the whole program (concurrent map iteration and map write), which no recover stops (C118_crash_violated). If it is a StructVal being observed meanwhile, the data of one value is formatted as if of the type of another (C118_torn_violated). And if a Task finds its name taken, each of its later calls by a function that has a span adds one to Trace.Spans for good (C118_task_violated). Proved: these are the only moments in which it happens. The other kinds of sources hold only numbers, which a race can make inconsistent but not more; they are not modelled here"
  },
  {
   "property": "C119",
   "status": "partial",
   "theorems": [
    "Monkit.ObsPanic.C119_calls",
    "Monkit.ObsPanic.C119_finish_partial",
    "Monkit.ObsPanic.C119_told_partial",
    "Monkit.ObsPanic.C119_start_violated",
    "Monkit.ObsPanic.C119_finish_violated",
    "Monkit.ObsPanic.C119_broken_violated"
   ],
   "note": "false of the code in three ways: a Start that panics leaves its span listed for ever, with Current and Trace.Spans one too high, and observers told of a start without end (C119_start_violated); a Finish that panics keeps the end from the observers after it and replaces the panic of the function (C119_finish_violated); a Task whose name clashed at its first call adds one to Trace.Spans each time it is called again (C119_broken_violated). C119_calls says exactly what is left in every case; with no Start that panics, nothing is (C119_finish_partial), and observers are told of everything if no other Finish panics (C119_told_partial)"
  },
  {
   "property": "C120",
   "status": "partial",
   "theorems": [
    "Monkit.Spans.C120_spans",
    "Monkit.Spans.C120_held",
    "Monkit.Whole.C120_current",
    "Monkit.Spans.C120_ancestors_violated"
   ],
   "note": "proved, for functions that are not reset and for fewer than 2^63 calls, but for the last part: a span points to its parent, so that one running call keeps all its finished ancestors, and there is no bound on how many they are (C120_ancestors_violated). Go's maps do not give back memory when they shrink; that is not modelled"
  },
  {
   "property": "C121",
   "status": "partial",
   "theorems": [
    "Monkit.LiveArgs.C121_args_partial",
    "Monkit.LiveArgs.C121_same_partial",
    "Monkit.LiveArgs.C121_dead_partial",
    "Monkit.LiveArgs.C121_alone",
    "Monkit.LiveArgs.C121_later_violated",
    "Monkit.LiveArgs.C121_torn_violated",
    "Monkit.LiveArgs.C121_map_violated"
   ],
   "note": "proved for arguments that are not written to after they have been given; strings are shown as given in any case. False of the code for others: a span keeps references, and Args formats what they refer to when it is called, without any lock. So a slice that the function changes is shown as it is later (C121_later_violated) or as it never was (C121_torn_violated), and a listing that meets an assignment to a map ends the program (C121_map_violated)"
  },
  {
   "property": "C122",
   "status": "partial",
   "theorems": [
    "Monkit.DeltaReports.C122_delta_partial",
    "Monkit.DeltaReports.C122_alone_partial",
    "Monkit.DeltaReports.C122_negative_violated"
   ],
   "note": "proved for reports that do not overlap; false of the code otherwise: a total is read under one lock and exchanged under another, so that a report that reads first and exchanges last has a negative delta (C122_negative_violated). In any schedule a delta is the difference of two totals there were, and negative only if another report read during this one. One series; totals below 2^52"
  },
  {
   "property": "C123",
   "status": "partial",
   "theorems": [
    "Monkit.Quiet.C123_same",
    "Monkit.Quiet.C123_lines",
    "Monkit.Quiet.C123_order_partial",
    "Monkit.Quiet.C123_order_violated"
   ],
   "note": "proved but for the order within a scope: the sources of a scope and the errors of a function are visited in Go's order of maps, so that two reports, and their texts, differ in order (C123_order_violated). Without transformers; meters and runtime sources, whose rates depend on the time, are not at rest"
  },
  {
   "property": "C124",
   "status": "partial",
   "theorems": [
    "Monkit.TextRead.C124_text_partial",
    "Monkit.TextRead.C124_text_violated",
    "Monkit.TextRead.C124_funcs_partial",
    "Monkit.TextRead.C124_funcs_violated"
   ],
   "note": "proved when no name, argument, annotation or name of an error has a line break, even if it looks like a line of the list. It fails otherwise: nothing is escaped in text, so the value of an annotation (often data from outside) with a line break writes a span that does not exist, and a name a function (C124_text_violated, C124_funcs_violated). A call is read as a whole: where a name with parentheses ends and whether a comma belongs to an argument is C110's concern. The hypotheses that times have no comma, parenthesis or line break and that the lines of distributions are indented are facts about time.Duration's String and formatDist (funcs.go:25-34)"
  },
  {
   "property": "C125",
   "status": "partial",
   "theorems": [
    "Monkit.ReExit.C125_as_once_partial",
    "Monkit.ReExit.C125_root_spans_partial",
    "Monkit.ReExit.C125_all_spans_partial",
    "Monkit.ReExit.C125_finished_partial",
    "Monkit.ReExit.C125_span_count_partial",
    "Monkit.ReExit.C125_span_count_violated",
    "Monkit.ReExit.C125_current_violated",
    "Monkit.ReExit.C125_highwater_violated"
   ],
   "note": "proved for the lists of spans, although a further call can enter in the orphans a span that is just being started. False for the numbers, because only Timer's Stop guards against being called again: every further call lowers Trace.Spans by one (C125_span_count_partial says exactly that), so it can be 0 while a span runs (C125_span_count_violated), and Current by one, and counts as one more success or failure, so Current can be -1 (C125_current_violated) and later overlapping calls are missing in Highwater (C125_highwater_violated). Further calls start after the first has returned"
  },
  {
   "property": "C126",
   "status": "proved",
   "theorems": [
    "Monkit.Times.C126_duration",
    "Monkit.Times.C126_equal",
    "Monkit.Times.C126_lines",
    "Monkit.Times.C126_times",
    "Monkit.Times.C126_funcs",
    "Monkit.Times.C126_spans"
   ],
   "note": "time.Duration.String of the Go library is modelled from its source; what a text stands for is a reader of its own (Spec.nanoseconds). That names with line breaks can make up spans and functions is C124"
  },
  {
   "property": "C127",
   "status": "partial",
   "theorems": [
    "Monkit.Races.C127_only_partial",
    "Monkit.Races.C127_none",
    "Monkit.Races.C127_task_violated",
    "Monkit.Races.C127_tags_violated",
    "Monkit.Races.C127_runtime_violated",
    "Monkit.Races.C127_clash_violated"
   ],
   "note": "false in four places: Func() of a task made by Scope.Task reads the function that the first call sets; String of a TagSet stores its cached text without a lock; so do two reports of environment.Runtime with its distribution; and the message that a name is taken reads the source without its lock. Apart from these there is no race, for all programs. The functions are modelled by their lock operations and accesses, values left out, so every test may turn out either way; user code called with a lock held (a ping, an error name handler) is taken not to call the library"
  },
  {
   "property": "C128",
   "status": "proved",
   "theorems": [
    "Monkit.Races.C128_progress",
    "Monkit.Races.C128_circle"
   ],
   "note": "same model as C127: functions by their lock operations and accesses, every test may turn out either way, any goroutines on any objects. User code that is called with a lock held (a ping, an error name handler, a sampling callback) is taken not to call the library; what happens if it does is C89 and C104. That a function does not run forever with a lock held is not part of this (C105 is an exception; the returns of single functions are proved with their claims)"
  },
  {
   "property": "C129",
   "status": "partial",
   "theorems": [
    "Monkit.Traced.C129_name",
    "Monkit.Traced.C129_shared",
    "Monkit.Traced.C129_one",
    "Monkit.Traced.C129_own_partial",
    "Monkit.Traced.C129_nested",
    "Monkit.Traced.C129_own_violated",
    "Monkit.Traced.C129_apart_violated"
   ],
   "note": "false in two parts: the tags of the function are dropped, so that functions that differ by their tags only share one (C129_own_violated; a tag called name even changes the name it goes by, C129_name), and a function that the program itself calls f-TRACED is the one of f (C129_apart_violated). Exactly who shares is proved for all functions (C129_shared), and one each for functions without tags"
  },
  {
   "property": "C130",
   "status": "partial",
   "theorems": [
    "Monkit.Series.C130_same_partial",
    "Monkit.Series.C130_distinct_partial",
    "Monkit.Series.C130_gauge_partial",
    "Monkit.Series.C130_scopes",
    "Monkit.Series.C130_order_violated",
    "Monkit.Series.C130_lost_violated",
    "Monkit.Series.C130_scope_violated",
    "Monkit.Series.C130_name_violated",
    "Monkit.Series.C130_kind_violated",
    "Monkit.Series.C130_error_violated",
    "Monkit.Series.C130_function_violated"
   ],
   "note": "false in six parts: the same tags in another order make another source that reports under the same series, which the documentation of FuncNamed hints at (C130_order_violated; Collect then loses one of the two values, C130_lost_violated); a tag called scope is overwritten by the scope (C130_scope_violated); a tag called name takes the place of a function's name (C130_name_violated); a tag of a function called kind is overwritten in its times, and one called error_name in its counts of errors, so that functions that differ by it only share these (C130_kind_violated, C130_error_violated); and other sources may go by function (C130_function_violated). Proved: apart from these, sources called function_times and tags given twice, for all sources; and for scopes of different names without exception. Gauges are included; chained sources report what they like"
  }
 ]
}