import Verif.Props.Counter
import Verif.Props.CounterConc
import Verif.Props.Dist3
import Verif.Proofs.DistAvg
import Verif.Props.Dist4
import Verif.Props.Dist5
import Verif.Props.FloatDist
import Verif.Props.FloatDist2
import Verif.Props.Rng
import Verif.Props.Meter
import Verif.Props.Val
import Verif.Props.BoolVal
import Verif.Props.FuncStats
import Verif.Props.FuncStats2
import Verif.Props.FuncSeries
import Verif.Props.Highwater
import Verif.Props.FuncSet
import Verif.Props.SpanBag
import Verif.Props.Spans
import Verif.Props.Locks
import Verif.Props.Observers
import Verif.Props.Watchers
import Verif.Props.AllTraces
import Verif.Props.Collector
import Verif.Props.Ctx
import Verif.Props.Tasks
import Verif.Props.Calls
import Verif.Props.Id
import Verif.Props.Tags
import Verif.Props.Scope
import Verif.Props.RegScopes
import Verif.Props.Transform
import Verif.Props.Delta
import Verif.Props.Struct
import Verif.Props.StructNames
import Verif.Props.ErrorNames
import Verif.Props.Callers
import Verif.Props.Headers
import Verif.Props.Wrap
import Verif.Props.Dot
import Verif.Props.ListWriter
import Verif.Props.Path
import Verif.Props.KeepAlive
import Verif.Props.Svg
import Verif.Props.Runtime
import Verif.Props.Monotime
import Verif.Props.SpinLock
import Verif.Props.TaskFunc
import Verif.Props.TraceVals
import Verif.Props.Annotations
import Verif.Props.Present
import Verif.Props.Buffered
import Verif.Props.SvgText
import Verif.Props.SvgBar
import Verif.Props.Ticker
import Verif.Props.MeterConc
import Verif.Props.CasSafe
import Verif.Props.StructVal
import Verif.Props.Val2
import Verif.Props.FindSpan
import Verif.Props.Remote
import Verif.Props.RemoteReturns
import Verif.Props.RemotePanic
import Verif.Props.WatchSpans
import Verif.Props.CollectSpans
import Verif.Props.EndLock
import Verif.Props.JsonDocs
import Verif.Props.StatsText
import Verif.Props.Http
import Verif.Props.TraceQuery
import Verif.Props.ProcFs
import Verif.Props.ProcStats
import Verif.Props.Colour
import Verif.Props.Listing
import Verif.Props.FuncConc
import Verif.Props.TraceHttp
import Verif.Props.TraceHttpCb
import Verif.Props.TagsConc
import Verif.Props.Report
import Verif.Props.DiffConc
import Verif.Props.RemoteCb
import Verif.Props.QuantileLock
import Verif.Props.RuntimeConc
import Verif.Props.Env
import Verif.Props.Returns.Registry
import Verif.Props.Returns.Collect
import Verif.Props.Returns.Values
import Verif.Props.Returns.Scope
import Verif.Props.Returns.LockFree
import Verif.Props.ErrorBuilds
import Verif.Props.Rusage
import Verif.Props.Args
import Verif.Props.Fair
import Verif.Props.Quantile
import Verif.Props.Average
import Verif.Props.StatsJson
import Verif.Model.Whole
import Verif.Spec.Whole
import Verif.Proofs.Whole
import Verif.Proofs.WholeRun
import Verif.Props.Whole
import Verif.Model.Clock
import Verif.Spec.Clock
import Verif.Props.Clock
import Verif.Model.Attach
import Verif.Props.Attach
import Verif.Model.Clash
import Verif.Props.Clash
import Verif.Model.ObsPanic
import Verif.Spec.ObsPanic
import Verif.Proofs.ObsPanic
import Verif.Proofs.ObsPanic2
import Verif.Props.ObsPanic
import Verif.Spec.Leftovers
import Verif.Props.Leftovers
import Verif.Model.LiveArgs
import Verif.Spec.LiveArgs
import Verif.Proofs.LiveArgs
import Verif.Props.LiveArgs
import Verif.Model.DeltaReports
import Verif.Spec.DeltaReports
import Verif.Proofs.DeltaReports
import Verif.Props.DeltaReports
import Verif.Model.Quiet
import Verif.Props.Quiet
import Verif.Model.ClashTask
import Verif.Props.ClashTask
import Verif.Spec.TextRead
import Verif.Proofs.TextRead
import Verif.Props.TextRead
import Verif.Props.KeepAliveReturns
import Verif.Props.WatchReturns
import Verif.Model.ReExit
import Verif.Proofs.ReExit
import Verif.Props.ReExit
import Verif.Go.DurText
import Verif.Model.Times
import Verif.Spec.Times
import Verif.Proofs.Times
import Verif.Props.Times
import Verif.Go.Race
import Verif.Model.Races
import Verif.Proofs.Race
import Verif.Props.Races
import Verif.Proofs.Races
import Verif.Proofs.Deadlock
import Verif.Props.Deadlock
import Verif.Props.Traced
import Verif.Props.Series

/-!
# The axioms each property theorem depends on
-/

#print axioms Monkit.C01_counter_history
#print axioms Monkit.C01_counter_results
#print axioms Monkit.C02_counter_stats
#print axioms Go.Mutex.C03_mutex_linearizable
#print axioms Go.Mutex.C03_mutual_exclusion
#print axioms Go.Mutex.C03_no_deadlock
#print axioms Go.Mutex.C03_no_lost_update
#print axioms Monkit.Counter.C03_counter_no_lost_update
#print axioms Monkit.C04_dist_aggregates
#print axioms Monkit.C05_reservoir_real
#print axioms Monkit.C06_quantile_bounds_partial
#print axioms Monkit.C06_quantile_monotone_partial
#print axioms Monkit.C06_stats_report_partial
#print axioms Monkit.C06_quantile_bounds_violated
#print axioms Monkit.C07_query_safe_and_stable
#print axioms Monkit.C07_query_index_in_range
#print axioms Monkit.C08_reset_aggregates
#print axioms Monkit.C08_quantiles_depend_only_on_values_partial
#print axioms Monkit.C08_reset_violated
#print axioms Monkit.C09_slot_choice
#print axioms Monkit.C09_slot_uniform
#print axioms Monkit.C09_replacement_rate
#print axioms Monkit.C10_step_injective
#print axioms Monkit.C10_never_dies
#print axioms Monkit.C10_int63_nonneg
#print axioms Monkit.C11_seed_live_partial
#print axioms Monkit.C11_seed1024_live_partial
#print axioms Monkit.C11_seeds_differ
#print axioms Monkit.C11_seed_zero_violated
#print axioms Monkit.C11_dead_sampler
#print axioms Monkit.C12_total_since_new
#print axioms Monkit.C12_total_since_reset
#print axioms Monkit.C12_total_since_setTotal
#print axioms Monkit.C12_tick_keeps_total
#print axioms Monkit.C13_meter_report
#print axioms Monkit.C13_idle_tick
#print axioms Monkit.C13_rate_nonneg
#print axioms Monkit.C14_diff_meter
#print axioms Monkit.Timer.C15_timer_once
#print axioms Monkit.BoolVal.C16_report_bounds
#print axioms Monkit.BoolVal.C16_final_counts
#print axioms Monkit.BoolVal.C16_stored_once
#print axioms Monkit.BoolVal.C16_only_observe_stores
#print axioms Monkit.FuncStats.C17_accounting
#print axioms Monkit.FuncStats.C17_report
#print axioms Monkit.FuncStats.C17_times_report
#print axioms Monkit.FuncStats.C17_series_once
#print axioms Monkit.Highwater.C18_current_count
#print axioms Monkit.Highwater.C18_current_in_progress
#print axioms Monkit.Highwater.C18_highwater_le
#print axioms Monkit.Highwater.C18_started_le_highwater
#print axioms Monkit.Highwater.C18_highwater_exact
#print axioms Monkit.Highwater.C18_highwater_monotone
#print axioms Monkit.Highwater.C18_start_returns
#print axioms Monkit.Highwater.C19_nonneg_partial
#print axioms Monkit.Highwater.C19_nonneg_violated
#print axioms Monkit.FuncSet.C20_parents
#print axioms Monkit.C21_bag_iterate
#print axioms Monkit.C21_children
#print axioms Monkit.Spans.C22_root_spans
#print axioms Monkit.Spans.C23_all_spans
#print axioms Monkit.Spans.C23_all_spans_single
#print axioms Monkit.Spans.C24_finished_never_listed
#print axioms Monkit.Spans.C25_always_visible_partial
#print axioms Monkit.Spans.C25_always_visible_violated
#print axioms Monkit.Spans.C26_orphaned_iff_parent_finished
#print axioms Monkit.Spans.C26_orphaned_only_if_parent_exiting
#print axioms Monkit.Spans.C26_orphaned_stable
#print axioms Monkit.Spans.C27_span_count
#print axioms Monkit.Spans.C27_span_count_quiet
#print axioms Monkit.Ctx.C28_task_context
#print axioms Monkit.Ctx.C28_layers_do_not_accumulate
#print axioms Monkit.Ctx.C28_nested
#print axioms Monkit.Ctx.C28_reset
#print axioms Monkit.Tasks.C29_task_child
#print axioms Monkit.Tasks.C29_task_root
#print axioms Monkit.Tasks.C29_reset_trace
#print axioms Monkit.Tasks.C29_remote_trace
#print axioms Monkit.Tasks.C29_reachable
#print axioms Monkit.Calls.C30_panic_partial
#print axioms Monkit.Calls.C30_return
#print axioms Monkit.Calls.C30_panic_nil_violated
#print axioms Monkit.Calls.C30_nested_partial
#print axioms Monkit.Calls.C30_nested_violated
#print axioms Monkit.Observers.C31_observers
#print axioms Monkit.Watchers.C32_watchers
#print axioms Monkit.AllTraces.C33_observe_all_traces
#print axioms Monkit.Collector.C34_life_cycle
#print axioms Monkit.Collector.C35_recorded
#print axioms Monkit.Collector.C35_spans
#print axioms Monkit.Collector.C36_spans_terminates_partial
#print axioms Monkit.Collector.C36_spans_terminates_violated
#print axioms Monkit.Id.C37_nonneg
#print axioms Monkit.Id.C37_distinct_partial
#print axioms Monkit.Id.C37_few_bad_seeds
#print axioms Monkit.Id.C37_at_most_twice
#print axioms Monkit.Id.C37_five_in_a_row
#print axioms Monkit.Id.C37_distinct_violated
#print axioms Monkit.Tags.C38_set
#print axioms Monkit.Tags.C38_len
#print axioms Monkit.Tags.C38_immutable
#print axioms Monkit.Tags.C39_series_name
#print axioms Monkit.Tags.C39_deterministic
#print axioms Monkit.Tags.C40_injective_partial
#print axioms Monkit.Tags.C40_collect_partial
#print axioms Monkit.Tags.C40_injective_violated
#print axioms Monkit.Scope.C41_history
#print axioms Monkit.Scope.C41_same_object
#print axioms Monkit.Scope.C41_constructed_once
#print axioms Monkit.Scope.C41_panic_keeps_source
#print axioms Monkit.Scope.C41_kind_fixed
#print axioms Monkit.Scope.C41_exclusive
#print axioms Monkit.Scope.C41_no_deadlock
#print axioms Monkit.Scope.C42_distinct_partial
#print axioms Monkit.Scope.C42_distinct_violated
#print axioms Monkit.Scope.C42_func_apart_partial
#print axioms Monkit.Scope.C42_func_prefix_violated
#print axioms Monkit.Scope.C43_gauge_replaces
#print axioms Monkit.Scope.C43_gauge_panics
#print axioms Monkit.Scope.C43_gauge_never_steals
#print axioms Monkit.Scope.C43_stats
#print axioms Monkit.Scope.C43_every_call
#print axioms Monkit.Scope.C43_chain_accumulates
#print axioms Monkit.RegScopes.C44_history
#print axioms Monkit.RegScopes.C44_scope_named
#print axioms Monkit.RegScopes.C44_scopes
#print axioms Monkit.Transform.C45_unaffected
#print axioms Monkit.Transform.C45_with
#print axioms Monkit.Transform.C45_new
#print axioms Monkit.Transform.C45_compose
#print axioms Monkit.Transform.C45_order
#print axioms Monkit.Transform.C45_pipeline
#print axioms Monkit.Transform.C45_transform_stat_source
#print axioms Monkit.Delta.C46_stream
#print axioms Monkit.Delta.C46_passes_through
#print axioms Monkit.Delta.C46_telescopes
#print axioms Monkit.Delta.C46_series_independent
#print axioms Monkit.Delta.C46_float_exact
#print axioms Monkit.Delta.C46_concurrent_outputs
#print axioms Monkit.Delta.C46_concurrent_exchange
#print axioms Monkit.Delta.C46_concurrent_telescopes
#print axioms Monkit.Struct.C47_reports_partial
#print axioms Monkit.Struct.C47_not_struct
#print axioms Monkit.Struct.C47_panics_iff
#print axioms Monkit.Struct.C47_nil_ignored_violated
#print axioms Monkit.Struct.C47_names_partial
#print axioms Monkit.Struct.C47_blank_violated
#print axioms Monkit.ErrorNames.C48_precedence
#print axioms Monkit.ErrorNames.C48_one_name
#print axioms Monkit.ErrorNames.C48_rejecting_handlers
#print axioms Monkit.ErrorNames.C48_newest_wins
#print axioms Monkit.ErrorNames.C48_no_panic
#print axioms Monkit.ErrorNames.C48_naming_never_waits
#print axioms Monkit.ErrorNames.C48_builds
#print axioms Monkit.Callers.C49_func_name
#print axioms Monkit.Callers.C49_func_name_general
#print axioms Monkit.Callers.C49_package_name
#print axioms Monkit.Callers.C49_package_is_import_path_partial
#print axioms Monkit.Callers.C49_package_slash_violated
#print axioms Monkit.Callers.C49_package_dot_violated
#print axioms Monkit.Callers.C49_inlined_unknown
#print axioms Monkit.Callers.C49_package_injective
#print axioms Monkit.Headers.C50_round_trip_partial
#print axioms Monkit.Headers.C50_negative_violated
#print axioms Monkit.Headers.C50_sampling_only
#print axioms Monkit.Headers.C51_accepted
#print axioms Monkit.Headers.C51_rejected
#print axioms Monkit.Headers.C51_absent
#print axioms Monkit.Headers.C51_all_or_none
#print axioms Monkit.Headers.C52_imported
#print axioms Monkit.Headers.C52_round_trip_partial
#print axioms Monkit.Headers.C52_without_ids_violated
#print axioms Monkit.Wrap.C53_recorded_partial
#print axioms Monkit.Wrap.C53_last_code
#print axioms Monkit.Wrap.C53_first_code
#print axioms Monkit.Wrap.C53_twice_violated
#print axioms Monkit.Wrap.C53_flush_violated
#print axioms Monkit.Wrap.C53_informational_violated
#print axioms Monkit.Dot.C54_alphabet
#print axioms Monkit.Dot.C54_no_quote
#print axioms Monkit.Dot.C54_backslash
#print axioms Monkit.Dot.C54_lossless
#print axioms Monkit.Dot.C54_injective
#print axioms Monkit.ListWriter.C55_list_writer
#print axioms Monkit.ListWriter.C55_success
#print axioms Monkit.ListWriter.C55_succeeds
#print axioms Monkit.ListWriter.C56_stats_json_partial
#print axioms Monkit.ListWriter.C56_nan_violated
#print axioms Monkit.ListWriter.C56_unused_counter_violated
#print axioms Monkit.StatsJson.C56_marshal
#print axioms Monkit.Path.C57_answer
#print axioms Monkit.Path.C57_segments
#print axioms Monkit.Path.C57_only_two
#print axioms Monkit.Path.C57_bad_request_iff
#print axioms Monkit.KeepAlive.C58_no_ping_after_stop
#print axioms Monkit.KeepAlive.C58_stop_result
#print axioms Monkit.KeepAlive.C58_after_failure
#print axioms Monkit.KeepAlive.C58_cancels
#print axioms Monkit.KeepAlive.C58_cancelled_only_if_failed
#print axioms Monkit.KeepAlive.C58_no_panic
#print axioms Monkit.KeepAlive.C58_progress
#print axioms Monkit.KeepAlive.C58_returns
#print axioms Monkit.Svg.C59_bars_partial
#print axioms Monkit.Svg.C59_lines_partial
#print axioms Monkit.Svg.C59_instant_violated
#print axioms Monkit.Svg.C59_long_violated
#print axioms Monkit.Svg.C59_zero_violated
#print axioms Monkit.Runtime.C60_exact
#print axioms Monkit.Runtime.C60_report
#print axioms Monkit.Runtime.C60_grows_partial
#print axioms Monkit.Runtime.C60_same_violated
#print axioms Monkit.Monotime.C61_exact_partial
#print axioms Monkit.Monotime.C61_monotone_partial
#print axioms Monkit.Monotime.C61_overflow_violated
#print axioms Monkit.Spin.C62_mutual_exclusion
#print axioms Monkit.Spin.C62_is_mutex
#print axioms Monkit.Spin.C62_free_can_be_taken
#print axioms Monkit.Spin.C62_progress
#print axioms Monkit.TaskFunc.C63_func_task
#print axioms Monkit.TaskFunc.C63_users_not_dispatched
#print axioms Monkit.TaskFunc.C63_not_a_task
#print axioms Monkit.TaskFunc.C63_no_side_effects
#print axioms Monkit.TaskFunc.C63_same_func
#print axioms Monkit.TaskFunc.C63_looked_up_once
#print axioms Monkit.TaskFunc.C63_after_run_partial
#print axioms Monkit.TaskFunc.C63_fresh_violated
#print axioms Monkit.TaskFunc.C63_failed_lookup
#print axioms Monkit.Calls.C64_accounting_partial
#print axioms Monkit.Calls.C64_panic_nil_violated
#print axioms Monkit.Locks.C65_locks_no_deadlock
#print axioms Monkit.Spans.C65_span_progress
#print axioms Monkit.Spans.C65_span_completion
#print axioms Monkit.C66_full_average_bounds
#print axioms Monkit.C66_reservoir_average_partial
#print axioms Monkit.C66_reservoir_average_error_partial
#print axioms Monkit.C66_report_partial
#print axioms Monkit.C66_reservoir_average_violated
#print axioms Monkit.C66_float_average_partial
#print axioms Monkit.C66_float_reservoir_average_partial
#print axioms Monkit.C66_float_average_violated
#print axioms Monkit.C66_float_reservoir_average_violated
#print axioms Monkit.C67_float_dist_partial
#print axioms Monkit.C67_quantiles_partial
#print axioms Monkit.C67_report
#print axioms Monkit.C67_nan_violated
#print axioms Monkit.C67_large_violated
#print axioms Monkit.Val.C68_val_concurrent
#print axioms Monkit.FloatVal.C68_float_val_concurrent
#print axioms Monkit.Headers.C69_linked_partial
#print axioms Monkit.Headers.C69_linked_violated
#print axioms Monkit.Headers.C69_unsampled
#print axioms Monkit.Headers.C69_chain
#print axioms Monkit.Svg.C70_rows_partial
#print axioms Monkit.Svg.C70_rows_violated
#print axioms Monkit.TraceVals.C71_get
#print axioms Monkit.TraceVals.C71_calls
#print axioms Monkit.TraceVals.C71_get_all
#print axioms Monkit.TraceVals.C71_panic_blocks
#print axioms Monkit.TraceVals.C71_panics_only_unhashable
#print axioms Monkit.TraceVals.C71_progress_partial
#print axioms Monkit.TraceVals.C71_blocks_violated
#print axioms Monkit.Annotations.C72_calls
#print axioms Monkit.Annotations.C72_snapshot
#print axioms Monkit.Annotations.C72_all_kept
#print axioms Monkit.Present.C73_walk
#print axioms Monkit.Present.C73_text
#print axioms Monkit.Present.C73_dot
#print axioms Monkit.Present.C73_unambiguous
#print axioms Monkit.Present.C74_dot
#print axioms Monkit.Present.C74_text
#print axioms Monkit.Present.C74_total
#print axioms Monkit.Present.C75_spans_text
#print axioms Monkit.Present.C75_spans_dot
#print axioms Monkit.Present.C75_funcs_dot
#print axioms Monkit.Present.C75_funcs_text_partial
#print axioms Monkit.Present.C75_funcs_text_violated
#print axioms Monkit.Buffered.C76_complete
#print axioms Monkit.Buffered.C76_prefix
#print axioms Monkit.Buffered.C76_failure_reported
#print axioms Monkit.Buffered.C76_succeeds
#print axioms Monkit.Buffered.C76_error_drops_buffer
#print axioms Monkit.Buffered.C76_listing
#print axioms Monkit.Buffered.C77_lag_partial
#print axioms Monkit.Buffered.C77_pings_violated
#print axioms Monkit.SvgText.C78_no_markup
#print axioms Monkit.SvgText.C78_lossless
#print axioms Monkit.SvgText.C78_text
#print axioms Monkit.SvgText.C78_script_partial
#print axioms Monkit.SvgText.C78_script_violated
#print axioms Monkit.SvgText.C78_declaration
#print axioms Monkit.SvgText.C78_drawn
#print axioms Monkit.SvgText.C78_drawn_script_partial
#print axioms Monkit.C79_copy_same
#print axioms Monkit.C79_copy_continues
#print axioms Monkit.C80_int_exact
#print axioms Monkit.C80_seconds
#print axioms Monkit.C80_counter
#print axioms Monkit.C80_report
#print axioms Monkit.Ticker.C81_one_goroutine
#print axioms Monkit.Ticker.C81_round
#print axioms Monkit.Ticker.C81_at_most_once
#print axioms Monkit.Ticker.C81_progress
#print axioms Monkit.MeterConc.C82_meter_concurrent
#print axioms Monkit.MeterConc.C82_no_mark_lost
#print axioms Monkit.CasSafe.C83_atomic
#print axioms Monkit.CasSafe.C83_one_winner
#print axioms Monkit.StructVal.C84_latest
#print axioms Monkit.FindSpan.C85_returns_only
#print axioms Monkit.FindSpan.C85_asked
#print axioms Monkit.FindSpan.C85_asked_no_more
#print axioms Monkit.FindSpan.C85_returns
#print axioms Monkit.Remote.C86_no_crash
#print axioms Monkit.Remote.C86_one_trace
#print axioms Monkit.Remote.C86_trace
#print axioms Monkit.Remote.C86_matcher
#print axioms Monkit.Remote.C86_error
#print axioms Monkit.Remote.C86_returns
#print axioms Monkit.Remote.C86_wakes
#print axioms Monkit.Remote.C86_panic
#print axioms Monkit.Remote.C86_panic_waits
#print axioms Monkit.WatchSpans.C87_result
#print axioms Monkit.WatchSpans.C87_error
#print axioms Monkit.WatchSpans.C87_detached
#print axioms Monkit.WatchSpans.C87_returns
#print axioms Monkit.CollectSpans.C88_result
#print axioms Monkit.CollectSpans.C88_inert_partial
#print axioms Monkit.CollectSpans.C88_detached_violated
#print axioms Monkit.EndLock.C89_panicking_handler_violated
#print axioms Monkit.EndLock.C89_panicking_handler_happens
#print axioms Monkit.EndLock.C89_reading_handler_violated
#print axioms Monkit.EndLock.C89_returns_partial
#print axioms Monkit.JsonDocs.C90_spans
#print axioms Monkit.JsonDocs.C90_finished
#print axioms Monkit.JsonDocs.C90_funcs
#print axioms Monkit.JsonDocs.C90_after_newlines
#print axioms Monkit.JsonDocs.C90_text
#print axioms Monkit.StatsText.C91_lines_partial
#print axioms Monkit.StatsText.C91_recover_partial
#print axioms Monkit.StatsText.C91_write_errors
#print axioms Monkit.StatsText.C91_newline_violated
#print axioms Monkit.Http.C92_bad_request
#print axioms Monkit.Http.C92_not_found
#print axioms Monkit.Http.C92_error_text
#print axioms Monkit.Http.C92_result_partial
#print axioms Monkit.Http.C92_trace_partial
#print axioms Monkit.Http.C92_failure_violated
#print axioms Monkit.Http.C92_index_partial
#print axioms Monkit.Http.C92_index_violated
#print axioms Monkit.TraceQuery.C93_no_interleaving
#print axioms Monkit.TraceQuery.C93_output
#print axioms Monkit.TraceQuery.C93_spans
#print axioms Monkit.TraceQuery.C93_error
#print axioms Monkit.TraceQuery.C93_no_document_after_failure
#print axioms Monkit.TraceQuery.C93_gives_up
#print axioms Monkit.ProcFs.C94_no_panic
#print axioms Monkit.ProcFs.C94_stat_partial
#print axioms Monkit.ProcFs.C94_right_or_absent
#print axioms Monkit.ProcFs.C94_statm
#print axioms Monkit.ProcFs.C94_name_violated
#print axioms Monkit.Rusage.C94_rusage
#print axioms Monkit.ProcStats.C95_read_once
#print axioms Monkit.ProcStats.C95_reports
#print axioms Monkit.ProcStats.C95_same_checksum
#print axioms Monkit.ProcStats.C95_fds
#print axioms Monkit.ProcStats.C95_fds_error
#print axioms Monkit.Colour.C96_right
#print axioms Monkit.Colour.C96_chosen_partial
#print axioms Monkit.Colour.C96_one_colour
#print axioms Monkit.Colour.C96_cycle_violated
#print axioms Monkit.Colour.C96_standard_wrapping_violated
#print axioms Monkit.Spans.C97_root_spans
#print axioms Monkit.Spans.C97_all_spans_alive
#print axioms Monkit.Spans.C97_all_spans_partial
#print axioms Monkit.Spans.C97_missed_violated
#print axioms Monkit.Spans.C97_twice_violated
#print axioms Monkit.FuncConc.C98_order
#print axioms Monkit.FuncConc.C98_report
#print axioms Monkit.FuncConc.C98_progress
#print axioms Monkit.FuncConc.C98_current
#print axioms Monkit.FuncConc.C98_highwater_partial
#print axioms Monkit.FuncConc.C98_highwater_violated
#print axioms Monkit.TraceHttp.C99_handler
#print axioms Monkit.TraceHttp.C99_span
#print axioms Monkit.TraceHttp.C99_annotations
#print axioms Monkit.TraceHttp.C99_told
#print axioms Monkit.TraceHttp.C99_end_partial
#print axioms Monkit.TraceHttp.C99_callback_partial
#print axioms Monkit.TraceHttp.C99_panic_nil_violated
#print axioms Monkit.TraceHttp.C99_panic_code_violated
#print axioms Monkit.TraceHttp.C99_observer_value_violated
#print axioms Monkit.TraceHttp.C99_hijack_violated
#print axioms Monkit.TraceHttp.C99_callback_violated
#print axioms Monkit.TraceHttp.C99_callback_returns
#print axioms Monkit.TraceHttp.C99_callback_panic_partial
#print axioms Monkit.TraceHttp.C99_callback_panic_violated
#print axioms Monkit.TraceHttp.C100_once_partial
#print axioms Monkit.TraceHttp.C100_headers
#print axioms Monkit.TraceHttp.C100_served
#print axioms Monkit.TraceHttp.C100_nil_header_violated
#print axioms Monkit.TraceHttp.C100_panic_nil_violated
#print axioms Monkit.TagsConc.C101_later_partial
#print axioms Monkit.TagsConc.C101_first_alone_partial
#print axioms Monkit.TagsConc.C101_pointer_first_partial
#print axioms Monkit.TagsConc.C101_violated
#print axioms Monkit.Report.C102_report
#print axioms Monkit.Report.C102_names
#print axioms Monkit.DiffConc.C103_two_moments_partial
#print axioms Monkit.DiffConc.C103_one_moment_partial
#print axioms Monkit.DiffConc.C103_violated
#print axioms Monkit.RemoteCb.C104_starts_return_partial
#print axioms Monkit.RemoteCb.C104_others_never_wait_partial
#print axioms Monkit.RemoteCb.C104_violated
#print axioms Monkit.QuantileLock.C105_no_panic_partial
#print axioms Monkit.QuantileLock.C105_returns_partial
#print axioms Monkit.QuantileLock.C105_panic_violated
#print axioms Monkit.QuantileLock.C105_nan_violated
#print axioms Monkit.RuntimeConc.C106_one_at_a_time_partial
#print axioms Monkit.RuntimeConc.C106_count_violated
#print axioms Monkit.RuntimeConc.C106_rmin_violated
#print axioms Monkit.Calls.C107_finished_partial
#print axioms Monkit.Calls.C107_success_violated
#print axioms Monkit.Env.C108_report_partial
#print axioms Monkit.Env.C108_env_violated
#print axioms Monkit.Env.C108_twice_violated
#print axioms Returns.C109_returned
#print axioms Monkit.RegScopes.C109_scopes
#print axioms Monkit.FuncSet.C109_parents
#print axioms Monkit.Watchers.C109_watchers
#print axioms Monkit.AllTraces.C109_all_traces
#print axioms Monkit.Collector.C109_collector
#print axioms Go.Mutex.C109_mutex
#print axioms Monkit.BoolVal.C109_boolval
#print axioms Monkit.Delta.C109_delta
#print axioms Monkit.DiffConc.C109_diffmeter
#print axioms Monkit.TagsConc.C109_tags
#print axioms Monkit.Annotations.C109_annotations
#print axioms Monkit.Scope.C109_scope
#print axioms Monkit.Report.C109_report
#print axioms Monkit.TaskFunc.C109_task
#print axioms Monkit.Highwater.C109_counters
#print axioms Monkit.Observers.C109_observers
#print axioms Monkit.Args.C110_listing
#print axioms Monkit.Args.C110_svg
#print axioms Monkit.Args.C110_json
#print axioms Monkit.Args.C110_injective
#print axioms Monkit.Args.C110_one_line
#print axioms Monkit.C111_fair
#print axioms Monkit.C111_kept
#print axioms Monkit.C111_recent
#print axioms Monkit.C111_moving
#print axioms Monkit.C111_float
#print axioms Monkit.C112_query
#print axioms Monkit.C112_report
#print axioms Monkit.C112_few
#print axioms Monkit.C112_float
#print axioms Monkit.C113_full_average
#print axioms Monkit.C113_empty
#print axioms Monkit.C113_float_full_average
#print axioms Monkit.C113_float_reservoir_average
#print axioms Monkit.C113_report
#print axioms Monkit.C113_float_report
#print axioms Monkit.StatsJson.C114_document
#print axioms Monkit.StatsJson.C114_apart
#print axioms Monkit.StatsJson.C114_integers
#print axioms Monkit.Whole.C115_listed
#print axioms Monkit.Whole.C115_parents
#print axioms Monkit.Whole.C115_report
#print axioms Monkit.Whole.C115_current
#print axioms Monkit.Whole.C115_all_spans
#print axioms Monkit.Whole.C115_accounting
#print axioms Monkit.Whole.C115_progress
#print axioms Monkit.Clock.C116_exact_partial
#print axioms Monkit.Clock.C116_nested
#print axioms Monkit.Clock.C116_log
#print axioms Monkit.Clock.C116_concurrent
#print axioms Monkit.Clock.C116_windows_recorded_partial
#print axioms Monkit.Clock.C116_windows_measured_partial
#print axioms Monkit.Clock.C116_windows_violated
#print axioms Monkit.Attach.C117_present_partial
#print axioms Monkit.Attach.C117_future
#print axioms Monkit.Attach.C117_published
#print axioms Monkit.Attach.C117_stays
#print axioms Monkit.Attach.C117_starting_violated
#print axioms Monkit.Attach.C117_running_violated
#print axioms Monkit.Clash.C118_crash_partial
#print axioms Monkit.Clash.C118_no_clash_partial
#print axioms Monkit.Clash.C118_result
#print axioms Monkit.Clash.C118_crash_violated
#print axioms Monkit.ClashStruct.C118_struct_partial
#print axioms Monkit.ClashStruct.C118_torn_violated
#print axioms Monkit.ClashTask.C118_task_partial
#print axioms Monkit.ClashTask.C118_task_violated
#print axioms Monkit.ObsPanic.C119_calls
#print axioms Monkit.ObsPanic.C119_finish_partial
#print axioms Monkit.ObsPanic.C119_told_partial
#print axioms Monkit.ObsPanic.C119_start_violated
#print axioms Monkit.ObsPanic.C119_finish_violated
#print axioms Monkit.ObsPanic.C119_broken_violated
#print axioms Monkit.Spans.C120_spans
#print axioms Monkit.Spans.C120_held
#print axioms Monkit.Whole.C120_current
#print axioms Monkit.Spans.C120_ancestors_violated
#print axioms Monkit.LiveArgs.C121_args_partial
#print axioms Monkit.LiveArgs.C121_same_partial
#print axioms Monkit.LiveArgs.C121_dead_partial
#print axioms Monkit.LiveArgs.C121_alone
#print axioms Monkit.LiveArgs.C121_later_violated
#print axioms Monkit.LiveArgs.C121_torn_violated
#print axioms Monkit.LiveArgs.C121_map_violated
#print axioms Monkit.DeltaReports.C122_delta_partial
#print axioms Monkit.DeltaReports.C122_alone_partial
#print axioms Monkit.DeltaReports.C122_negative_violated
#print axioms Monkit.Quiet.C123_same
#print axioms Monkit.Quiet.C123_lines
#print axioms Monkit.Quiet.C123_order_partial
#print axioms Monkit.Quiet.C123_order_violated
#print axioms Monkit.TextRead.C124_text_partial
#print axioms Monkit.TextRead.C124_text_violated
#print axioms Monkit.TextRead.C124_funcs_partial
#print axioms Monkit.TextRead.C124_funcs_violated
#print axioms Monkit.ReExit.C125_as_once_partial
#print axioms Monkit.ReExit.C125_root_spans_partial
#print axioms Monkit.ReExit.C125_all_spans_partial
#print axioms Monkit.ReExit.C125_finished_partial
#print axioms Monkit.ReExit.C125_span_count_partial
#print axioms Monkit.ReExit.C125_span_count_violated
#print axioms Monkit.ReExit.C125_current_violated
#print axioms Monkit.ReExit.C125_highwater_violated
#print axioms Monkit.Times.C126_duration
#print axioms Monkit.Times.C126_equal
#print axioms Monkit.Times.C126_lines
#print axioms Monkit.Times.C126_times
#print axioms Monkit.Times.C126_funcs
#print axioms Monkit.Times.C126_spans
#print axioms Monkit.Races.C127_only_partial
#print axioms Monkit.Races.C127_none
#print axioms Monkit.Races.C127_task_violated
#print axioms Monkit.Races.C127_tags_violated
#print axioms Monkit.Races.C127_runtime_violated
#print axioms Monkit.Races.C127_clash_violated
#print axioms Monkit.Races.C128_progress
#print axioms Monkit.Races.C128_circle
#print axioms Monkit.Traced.C129_name
#print axioms Monkit.Traced.C129_shared
#print axioms Monkit.Traced.C129_one
#print axioms Monkit.Traced.C129_own_partial
#print axioms Monkit.Traced.C129_nested
#print axioms Monkit.Traced.C129_own_violated
#print axioms Monkit.Traced.C129_apart_violated
#print axioms Monkit.Series.C130_same_partial
#print axioms Monkit.Series.C130_distinct_partial
#print axioms Monkit.Series.C130_gauge_partial
#print axioms Monkit.Series.C130_scopes
#print axioms Monkit.Series.C130_order_violated
#print axioms Monkit.Series.C130_lost_violated
#print axioms Monkit.Series.C130_scope_violated
#print axioms Monkit.Series.C130_name_violated
#print axioms Monkit.Series.C130_kind_violated
#print axioms Monkit.Series.C130_error_violated
#print axioms Monkit.Series.C130_function_violated
