#!/usr/bin/env python3
"""Write MANIFEST.json.  Plain data: property, status, theorems, note."""
import json, os
C = []
def c(prop, status, theorems, note=""):
    C.append({"property": prop, "status": status, "theorems": theorems.split(), "note": note})

c("C01", "proved", "Reader.c01_chunk_independence Reader.c01_one_piece Reader.c01_negative_length_splits",
  "Chunk independence for every stream whose length headers are non-negative; outside that proviso the code is chunk dependent, proved by witness.")
c("C02", "proved", "Reader.c02_http_roundtrip Reader.c02_c03_wire_roundtrip")
c("C03", "proved", "Reader.c03_line_roundtrip Reader.c02_c03_wire_roundtrip")
c("C04", "partial", "Writer.c04_fifo Writer.c04_at_most_once Writer.c04_nothing_after_exit Writer.c04_complete_at_exit Writer.c04_complete_at_empty Writer.c04_progress Writer.c04_no_accept_after_kill Writer.c04_lost_before_exit",
  "Order, at-most-once and progress hold for every schedule. 'Everything accepted before exit is sent' is false of the code (Empty/put/kill race): c04_lost_before_exit.")
c("C05", "partial", "SeqNum.c05_even_positive SeqNum.c05_unique_partial SeqNum.c05_unique_nodup_partial SeqNum.c05_race SeqNum.c05_race_second_read",
  "Unique when the calls do not overlap; overlapping unlocked calls can return the same number (c05_race).")
c("C06", "proved", "AnyThread.c06_at_most_once AnyThread.c06_exactly_once")
c("C07", "proved", "CmdQueue.c07_no_loss_no_dup CmdQueue.c07_right_thread CmdQueue.c07_fifo CmdQueue.c07_drain_complete CmdQueue.c07_foreign_drain_reorders",
  "FIFO holds when the thread drains its own queue; the foreign-drain reorder is a witness.")
c("C08", "proved", "Timeout.c08_at_most_once Timeout.c08_never_early Timeout.c08_deadline Timeout.c08_disposed_never_called Timeout.c08_dispose_race Timeout.c08_not_lost Timeout.c08_due_called Timeout.c08_wait Timeout.c08_released Timeout.c08_no_spin",
  "The stronger 'never called after the with block is left' is false once the pass has looked at the handle (different locks): c08_dispose_race.")
c("C09", "proved", "Auth.c09_executed_only_if_authorised Auth.c09_token_not_disclosed Auth.c09_refused Auth.c09_no_token_lockout")
c("C10", "proved", "Auth.c10_lockout Auth.c10_before_limit")
c("C11", "proved", "Notify.c11_one_stop_per_request Notify.c11_continue_only_after_stop Notify.c11_all_resumed Notify.c11_resume_reported Notify.c11_stop_reported Notify.c11_pause_reported Notify.c11_stops_need_not_alternate",
  "Strict alternation of stopped/continued is not a property of the code (witness c11_stops_need_not_alternate) and is not claimed.")
c("C12", "proved", "Notify.c12_exactly_once Notify.c12_first_continue Notify.c12_raising_callback_loses_others",
  "For callbacks that do not raise; a raising callback loses the later ones (witness).")
c("C13", "partial", "ThreadEvents.c13_decided_alternate ThreadEvents.c13_sent_once ThreadEvents.c13_sent_alternate_partial ThreadEvents.c13_race ThreadEvents.c13_poll_tracks_alive ThreadEvents.c13_off ThreadEvents.c13_no_return ThreadEvents.c13_no_return_example",
  "The decisions alternate; the hand-over to the writer happens outside the lock, so the wire order can be inverted (c13_race). Sent order is proved for non-overlapping hand-overs.")
c("C14", "proved", "Lifecycle.c14_suspend_all Lifecycle.c14_suspend_one Lifecycle.c14_resume_all Lifecycle.c14_resume_one Lifecycle.c14_resume_frame Lifecycle.c14_suspend_then_resume")
c("C15", "proved", "Frames.c15_resolves Frames.c15_only_suspended Frames.c15_expired Frames.c15_thread Frames.c15_no_error Frames.c15_frame_tracked_twice")
c("C16", "proved", "Grouping.c16_children Grouping.c16_no_loss Grouping.c16_group_contents Grouping.c16_category Grouping.c16_frame_no_loss Grouping.c16_frame_returned Grouping.c16_frame_sorted Grouping.c16_sort_key Grouping.c16_category_key Grouping.c16_category_key_id Grouping.c16_category_key_example")
c("C17", "proved", "Breakpoints.c17_refines Breakpoints.c17_unreached Breakpoints.c17_refines_no_mapping Breakpoints.c17_other_files Breakpoints.c17_dap Breakpoints.c17_alias_names Breakpoints.c17_remove_source_mapped Breakpoints.c17_reapply_forgets_adjustment",
  "Under the proviso in the statement. Outside it, witnesses: aliased names, removal through a source mapping, re-application of breakpoints.")
c("C18", "proved", "Breakpoints.c18_executable_stays Breakpoints.c18_nearest_before Breakpoints.c18_none_before Breakpoints.c18_code_lines Breakpoints.c18_reported")
c("C19", "proved", "Breakpoints.c19_answers_in_order Breakpoints.c19_ids_fresh")
c("C20", "proved", "HitCond.c20_relation HitCond.c20_bare_number HitCond.c20_sequence HitCond.c20_counted_once HitCond.c20_no_condition HitCond.c20_leading_zero_never_stops",
  "Numbers in canonical decimal form; a leading zero makes the breakpoint never stop (witness).")

c("C21", "proved", "Exceptions.c21_exact Exceptions.c21_most_specific Exceptions.c21_none Exceptions.c21_order_independent")
c("C24", "proved", "Exceptions.c24_suspended Exceptions.c24_control_flow Exceptions.c24_stop_iff Exceptions.c24_user_uncaught Exceptions.c24_plugin",
  "Template-plugin stops are outside the statement (hypothesis: the plugin does not ask to stop).")
c("C51", "proved", "Exceptions.c51_filters Exceptions.c51_options Exceptions.c51_remove Exceptions.c51_add_keeps_stale",
  "c51_add_keeps_stale: adding a single breakpoint again (old protocol) does not clear kinds no longer asked for.")
c("C52", "proved", "Exceptions.c52_unhandled")

c("C22", "partial", "Dispatch.c22_partial Dispatch.c22_function_partial Dispatch.c22_identical_files Dispatch.c22_race Dispatch.c22_smart_step_hides_breakpoint Dispatch.c22_filters_widened Dispatch.c22_library_not_retraced",
  "Proved for every history (events of any threads, breakpoint, function-breakpoint, filter and option changes) under hypotheses the code needs; each hypothesis has a witness of the violation without it: identical functions in two files share a cache entry, smart step into disables callees, widened filters and library files do not re-trace running frames, and the race of an event in progress with a change.")
c("C23", "proved", "Dispatch.c23_run Dispatch.c23_over_only Dispatch.c23_over_stops Dispatch.c23_over_return Dispatch.c23_return_only Dispatch.c23_return_stops Dispatch.c23_into_line Dispatch.c23_into_return Dispatch.c23_over_sequence Dispatch.c23_over_sequence_stops Dispatch.c23_start Dispatch.c23_start_return_filtered Dispatch.c23_into_callee_traced Dispatch.c23_into_return_stops Dispatch.c23_dont_trace Dispatch.c23_traced Dispatch.c23_coroutine_line Dispatch.c23_generator_return Dispatch.c23_yield Dispatch.c23_generator_example Dispatch.c23_suspends_iff Dispatch.c23_return_outermost Dispatch.c23_skip_notice Dispatch.c23_skip_notice_example Dispatch.c23_skip_notice_pydev_witness",
  "Tracing backend, without the IPython scoped step.")
c("C50", "proved", "Dispatch.c50_stop_only_if Dispatch.c50_hit_line Dispatch.c50_logpoint_never_stops Dispatch.c50_condition",
  "Tracing backend.")

c("C25", "proved", "TryExcept.c25_regions TryExcept.c25_decision TryExcept.c25_source TryExcept.c25_top_level TryExcept.c25_leaving_reported TryExcept.c25_retry_misreported TryExcept.c25_except_star_fails TryExcept.c25_except_star_misattributed",
  "Regions from the source file; the bytecode fallback is a parameter. Witnesses: a retry loop is misreported, except* breaks the collection.")
c("C26", "proved", "Filtering.c26_components Filtering.c26_unix Filtering.c26_drive Filtering.c26_altsep",
  "fnmatch inside one component and normcase are parameters.")
c("C27", "proved", "Filtering.c27_first Filtering.c27_rules Filtering.c27_classes Filtering.c27_matches Filtering.c27_short_file_name")
c("C28", "proved", "Filtering.c28_roots Filtering.c28_fix_roots Filtering.c28_synthetic Filtering.c28_slash_root",
  "Paths given by components; the file system root itself as a root never matches (witness).")
c("C29", "proved", "FilterCache.c29_answers FilterCache.c29_patterns FilterCache.c29_module_not_in_key FilterCache.c29_string_twice FilterCache.c29_race",
  "Without plugins. Each proviso of the statement has a witness of the violation without it.")

c("C30", "proved", "Paths.c30_to_client Paths.c30_to_server Paths.c30_round_trip Paths.c30_unmapped Paths.c30_no_table Paths.c30_slash_roots Paths.c30_one_separator Paths.c30_current Paths.c30_sibling_mapped Paths.c30_nested_roots",
  "Case normalisation per character; absolute path and real case are parameters. Witnesses: a root without final separator catches siblings, nested client roots in the wrong order do not round-trip.")
c("C31", "proved", "Paths.c31_resolves Paths.c31_resolves_again Paths.c31_distinct Paths.c31_stable Paths.c31_restart",
  "Changing the path mappings changes what a frame reference means (witness c31_restart).")

c("C32", "proved", "SourceMap.c32_refines SourceMap.c32_round_trip SourceMap.c32_past_the_end SourceMap.c32_two_ranges SourceMap.c32_stuck SourceMap.c32_race",
  "Valid tables (no overlap, one entry per runtime source), requests one at a time. Witnesses outside: lines past the end of an entry, two ranges of one runtime source, a table that can never be replaced, a race with a replacement.")

c("C33", "proved", "Ids.c33_translates_back Ids.c33_distinct Ids.c33_refused Ids.c33_same Ids.c33_race_two_ids Ids.c33_race_refused",
  "For every schedule of the threads, except ids whose creator is between its two assignments (witness c33_race_refused). One client id per internal id when translations do not overlap (witness c33_race_two_ids otherwise).")
c("C34", "proved", "Ids.c34_resolves Ids.c34_same_iff Ids.c34_answers Ids.c34_step_targets Ids.c34_step_into Ids.c34_step_unknown Ids.c34_limit_exceeded Ids.c34_first_fifteen",
  "Step-in targets are given as input (the bytecode analysis is not modelled); the limit of 15 is not always kept (witness).")

c("C35", "proved", "Xml.c35_unescape Xml.c35_no_markup Xml.c35_unquote Xml.c35_readable Xml.c35_var Xml.c35_var_texts Xml.c35_trim Xml.c35_io Xml.c35_frame Xml.c35_thread Xml.c35_escaped_inside Xml.c35_file_with_ampersand",
  "Text without surrogates. File and thread names are escaped before they are quoted: characterised exactly, with a witness.")

c("C36", "proved", "LogMsg.c36_value LogMsg.c36_trimmed LogMsg.c36_literal LogMsg.c36_unbalanced LogMsg.c36_percent_fails LogMsg.c36_percent_lost LogMsg.c36_tuple_fails",
  "Evaluation by Python (repr, % formatting with a tuple) is a structure of assumptions shown to be satisfiable. The provisos of the statement have witnesses: percent signs in the literal text and expressions with a comma.")
c("C37", "proved", "CmdLine.c37_parse CmdLine.c37_terminates CmdLine.c37_debug_never_ends CmdLine.c37_round_trip",
  "Without --DEBUG, with which parsing never ends (witness). --qt-support is not written by the conversion, so it parses back to its default.")

c("C38", "proved", "SafeRepr.c38_bounded SafeRepr.c38_default_bound SafeRepr.c38_exact SafeRepr.c38_long_collection SafeRepr.c38_long_dict SafeRepr.c38_long_text SafeRepr.c38_too_deep SafeRepr.c38_self SafeRepr.c38_empty_set SafeRepr.c38_apostrophe_loses_text",
  "Without raw values and hexadecimal; repr() of other objects is an input. Within the limits means fewer items than the limit. Witnesses: the empty set is shown as {}, long texts with an apostrophe lose text.")

c("C39", "proved", "WinQuote.c39_round_trip WinQuote.c39_rules WinQuote.c39_newline WinQuote.c39_split WinQuote.c39_own_split WinQuote.c39_last_backslash WinQuote.c39_doubled",
  "Arguments that do not end in a backslash and a newline (witness c39_newline otherwise), for both conventions about doubled quotes. The debugger's own splitter agrees with the standard rules except at a final backslash and doubled quotes (witnesses).")
c("C40", "proved", "PatchArgs.c40_is_python PatchArgs.c40_not_python PatchArgs.c40_script PatchArgs.c40_module PatchArgs.c40_code PatchArgs.c40_untouched PatchArgs.c40_forms PatchArgs.c40_code_text PatchArgs.c40_again PatchArgs.c40_again_code_witness PatchArgs.c40_child PatchArgs.c40_windows PatchArgs.c40_windows_script PatchArgs.c40_windows_module PatchArgs.c40_windows_code PatchArgs.c40_windows_untouched PatchArgs.c40_windows_quotes",
  "The position of the last import from __future__ is an input. c40_child composes with C37: the debugger in the subprocess reads back the program, its arguments and the settings. On Windows, commands that should be left as they are lose their quotes, and so do arguments enclosed in quotes (witnesses).")

c("C41", "proved", "FsNotify.c41_scan FsNotify.c41_initial FsNotify.c41_changes FsNotify.c41_dangling_link FsNotify.c41_trailing_slash FsNotify.c41_set_order",
  "The tree does not change during a scan. Roots without final separator; nested roots visited first or nothing cut by the maximum level; files listed after an entry that cannot be examined are hidden. Each proviso has a witness.")
c("C42", "proved", "Resolver.c42_all_items Resolver.c42_resolves Resolver.c42_resolves_bucket Resolver.c42_dictionary Resolver.c42_initial_zero Resolver.c42_bucket_zero Resolver.c42_deque_fails Resolver.c42_hex_more Resolver.c42_hex_name",
  "Lists and tuples, with positive settings. Witnesses: a long deque can never be expanded, settings of zero repeat an item or never end, hexadecimal names are lost below 'more' and do not resolve.")

c("C43", "proved", "Columns.c43_column Columns.c43_shown Columns.c43_several_lines Columns.c43_empty Columns.c43_mapped_line Columns.c43_unknown",
  "Python's parser (the more precise part of an expression) is an input. Witnesses: the empty line, and lines moved by a source mapping, where the columns are computed from another line.")
c("C44", "proved", "Stack.c44_full Stack.c44_page Stack.c44_pages Stack.c44_start_ignored Stack.c44_chain_cut Stack.c44_names",
  "The stack does not change between the requests. Filters, mappings and name formats are parameters. Witnesses: startFrame without levels is ignored; frames of exceptions chained after one without a traceback are not shown.")
c("C45", "proved", "Stack.c45_chain Stack.c45_from_none",
  "Finitely many exceptions; attributes that raise count as None. Witness: a context suppressed by 'from None' is listed.")
c("C55", "proved", "Stack.c55_whole Stack.c55_from_frame Stack.c55_other_frame Stack.c55_line Stack.c55_raised_twice Stack.c55_chained_order",
  "Lines exact for frames with one entry in the traceback (witness otherwise); chained exceptions are listed in the opposite order (witness).")

c("C46", "proved", "Stepping.c46_not_missed Stepping.c46_not_invented Stepping.c46_collected Stepping.c46_limbo Stepping.c46_suspending Stepping.c46_wrong_thread_woken Stepping.c46_woken_iff",
  "Every interleaving, with entries read while they are assigned to. Holds once every thread that changed a state has updated. Witnesses: a thread object that was collected counts forever, a thread registered before it runs is lost, the update wakes the wrong thread.")

c("C47", "proved", "Monitor.c47 Monitor.c47_equal_code",
  "Witness: equal functions in two files share the cached information, so a breakpoint is not seen.")
c("C48", "proved", "Monitor.c48_line Monitor.c48_start Monitor.c48_on",
  "Line and start events; jump, return and exception events are not modelled.")
c("C56", "proved", "Monitor.c56_line Monitor.c56_function Monitor.c56_example Monitor.c56_generator Monitor.c56_unknown_thread Monitor.c56_stale",
  "Unconditional breakpoints, no plugins, filters that do not change. Each of the three provisos has a witness in which the breakpoint is missed.")
c("C57", "proved", "Monitor.c57 Monitor.c57_example Monitor.c57_other_thread",
  "Witness: another thread that is not to pause switches off the lines, and the pause is missed.")

c("C49", "proved", "Modules.c49_once Modules.c49_announced Modules.c49_alone Modules.c49_example Modules.c49_race Modules.c49_no_deadlock",
  "Any number of threads, every interleaving. c49_race: the request that loses the race is never answered and the modules it registered are never announced.")

c("C53", "proved", "Containers.c53_dict Containers.c53_dict_all Containers.c53_dict_child Containers.c53_dict_resolves Containers.c53_dict_assigns Containers.c53_set Containers.c53_set_resolves Containers.c53_set_change Containers.c53_example Containers.c53_same_name Containers.c53_exact Containers.c53_set_exact Containers.c53_set_change_equal Containers.c53_set_change_example Containers.c53_dict_assigns_large",
  "Provisos as in the statement; c53_same_name, c53_exact, c53_set_exact and c53_set_change_equal show what happens without them.")

c("C58", "proved", "MonStep.c58_same_stops MonStep.c58_program MonStep.c58_does_switch_off MonStep.c58_library_breakpoints MonStep.c58_library_breakpoints_never MonStep.c58_pause_missed MonStep.c58_step_after_exception_lost MonStep.c58_example MonStep.c58_example_library MonStep.c58_line_breakpoint MonStep.c58_function_breakpoint",
  "simulation between the debugger as it is and one that gets every event, for one thread; the provisos are hypotheses (AllFine), c58_pause_missed and c58_step_after_exception_lost show that they are needed; c58_library_breakpoints_never is a finding")
c("C59", "proved", "MonStep.c59_into_line MonStep.c59_into_return MonStep.c59_into_only MonStep.c59_over_line MonStep.c59_over_return MonStep.c59_over_only MonStep.c59_over_goes_on MonStep.c59_return MonStep.c59_return_only MonStep.c59_run_only MonStep.c59_pause MonStep.c59_over_lost MonStep.c59_return_lost MonStep.c59_example_return MonStep.c59_example_lost MonStep.c59_example_hook",
  "proved for the debugger as it is by C58; the lost steps are findings")

c("C60", "proved", "Bytecode.c60_program_kept Bytecode.c60_does_the_same Bytecode.c60_does_nothing_else Bytecode.c60_refused Bytecode.c60_example",
  "the interpreter is abstract in the meaning of the program's instructions; its line events and the assembler (C62) are separate")
c("C61", "proved", "Bytecode.c61_every_entry_asks Bytecode.c61_first_entry_asks Bytecode.c61_stops_announced Bytecode.c61_checks_obeyed Bytecode.c61_asks_only_wanted Bytecode.c61_answer Bytecode.c61_no Bytecode.c61_second_copy_missed Bytecode.c61_second_copy_met",
  "from 3.10 on for every entry; before, for the first copy of a line, with the missed second copy as a finding")

c("C62", "proved", "Assemble.c62_faithful Assemble.c62_table_fits Assemble.c62_small_is_built Assemble.c62_example",
  "The interpreter's side (prefixes, jumps, both tables of lines) is specified in Assemble/Spec.lean from CPython's documentation. Constants, names and variables are numbers already. That jumps are settled within ten passes is proved for small programs only; otherwise building raises.")
c("C63", "proved", "Assemble.c63_read_back Assemble.c63_round_trip Assemble.c63_example",
  "What dis.findlinestarts says is an input. Looking up constants and names by number is not modelled.")
c("C64", "proved", "FrameEval.c64_serves FrameEval.c64_fails_only_copies FrameEval.c64_copy_kept FrameEval.c64_example FrameEval.c64_removed_fails FrameEval.c64_suspended_is_replaced FrameEval.c64_name_not_served FrameEval.c64_mid_change",
  "One function in a file that is debugged, any number of threads, each evaluation in four steps (look, stamp, read lines, finish). The last four theorems are findings and show that the provisos are needed.")

c("C65", "proved", "Requests.c65_accounted Requests.c65_at_most_once Requests.c65_own_request Requests.c65_exactly_once Requests.c65_answered_at_once Requests.c65_bad_answered Requests.c65_unauthenticated Requests.c65_not_launched Requests.c65_session_goes_on Requests.c65_thread_answers Requests.c65_goto_answered Requests.c65_continue_answered Requests.c65_any_answers Requests.c65_continue_not_before Requests.c65_left_to_thread Requests.c65_every_request_answered Requests.c65_example Requests.c65_harmless_example Requests.c65_unhandled_witness Requests.c65_session_ends_witness Requests.c65_thread_gone_witness Requests.c65_goto_continue_witness Requests.c65_continue_waits_witness Requests.c65_system_exit_witness Requests.c65_completions_witness Requests.c65_drain_witness Requests.c65_goto_again_witness",
  "All handlers of the JSON processor, as to when they answer; queues, resume callbacks and gotos with their internal commands. What handlers and evaluated code may raise beyond the modelled cases is a free choice. The witnesses show what the provisos exclude.")

c("C66", "proved", "MonExc.c66_user_unhandled MonExc.c66_user_unhandled_once MonExc.c66_raised MonExc.c66_unhandled MonExc.c66_unhandled_iff MonExc.c66_events_enough MonExc.c66_entry_removed MonExc.Ex.c66_example MonExc.Ex.c66_example_unhandled MonExc.Ex.c66_example_handled MonExc.Ex.c66_runpy_witness MonExc.Ex.c66_pure_build_witness MonExc.Ex.c66_twice_witness MonExc.Ex.c66_stale_witness MonExc.Ex.c66_expression_again_witness",
  "Template plugins (their answer is a parameter of the model) are excluded by hypothesis. CPython's part - which events a travelling exception causes and how its traceback grows - is part of the model. The witnesses show what the provisos exclude.")
c("C67", "proved", "IgnoreExc.c67_tag IgnoreExc.c67_ignored IgnoreExc.c67_command IgnoreExc.c67_client_lines_stay IgnoreExc.Ex.c67_example IgnoreExc.Ex.c67_string_witness IgnoreExc.Ex.c67_restored_witness",
  "linecache is modelled for files on disk; source from module loaders and edits in the middle of a query are not.")

c("C54", "proved", "Locks.c54_no_deadlock Locks.c54_someone_moves Locks.c54_exclusive Locks.c54_all_released Locks.c54_exactly Locks.c54_log_to_redirected_stream_witness Locks.c54_log_file_fails_witness Locks.c54_example",
  "Every lock of the debugger and what is called while it is held, with control flow forgotten. c54_exactly proves the proviso is the weakest one; the two witnesses are deadlocks reachable without it.")

c("C68", "proved", "Wake.c68_in_order Wake.c68_in_time Wake.c68_first_at_once Wake.c68_leaves Wake.c68_leaves_only Wake.c68_leaves_in_time Wake.c68_burst_witness Wake.c68_stepping Wake.c68_any_stepping Wake.c68_new_and_removed Wake.c68_event_kept Wake.c68_registered Wake.c68_woken Wake.c68_alone_woken Wake.c68_wrong_thread_witness Wake.c68_collected_witness Wake.c68_example",
  "The wait loop of one thread against any interleaving of posters; the bookkeeping for every iteration order. Witnesses: another thread is woken than the resumed one; a burst of commands takes a poll interval each.")

c("C69", "proved", "Evaluate.c69_sees Evaluate.c69_local_written Evaluate.c69_local_exact Evaluate.c69_new_name_kept Evaluate.c69_module_written Evaluate.c69_globals_kept Evaluate.c69_reading_changes_nothing Evaluate.c69_example Evaluate.c69_await_witness Evaluate.c69_walrus_lost_witness Evaluate.c69_global_not_assigned_witness Evaluate.c69_delete_witness Evaluate.c69_stale_global_witness",
  "For code with any effect. The provisos named in the statement have witnesses.")
c("C70", "proved", "Evaluate.c70_once Evaluate.c70_expression Evaluate.c70_statements_only_in_repl Evaluate.c70_statements Evaluate.c70_example Evaluate.c70_no_frame_witness Evaluate.c70_exec",
  "For code with any effect and outcome.")
c("C71", "partial", "Evaluate.c71_set Evaluate.c71_set_313_partial Evaluate.c71_set_global Evaluate.c71_raising_sets_nothing Evaluate.c71_set_expression Evaluate.c71_twice_witness Evaluate.c71_raised_success_witness Evaluate.c71_globals_name_witness Evaluate.c71_set_expression_global_witness Evaluate.c71_runs Evaluate.c71_globals_prefix",
  "From Python 3.13 the expression is run twice, so the full statement is false there (c71_twice_witness); proved for expressions without side effects.")
c("C72", "proved", "Evaluate.c72_all_or_none Evaluate.c72_removed Evaluate.c72_not_indented Evaluate.c72_relative Evaluate.c72_idempotent Evaluate.c72_example Evaluate.c72_string_witness",
  "For every predicate of whitespace.")
c("C73", "proved", "Evaluate.c73_found Evaluate.c73_example Evaluate.c73_underscore_witness Evaluate.c73_base_class_witness",
  "Provisos with witnesses.")

c("C74", "proved", "Redirect.c74_restored Redirect.c74_raises Redirect.c74_own Redirect.c74_client Redirect.c74_buffer Redirect.c74_program_stream_kept Redirect.c74_example Redirect.c74_not_nested_witness Redirect.c74_buffer_race_witness Redirect.c74_other Redirect.c74_buffer_whole",
  "Induction over programs; writes made inside a write of the same stream, and writes which raise, are left out.")

c("C75", "proved", "RunTests.c75_selected RunTests.c75_only RunTests.c75_no_empty_suite RunTests.c75_example RunTests.c75_run_test_witness RunTests.c75_class_hides_method_witness",
  "Induction over nested suites; matching of patterns is a parameter. load_tests hooks are not modelled.")
c("C76", "proved", "RunTests.c76_batch RunTests.c76_at_most_once RunTests.c76_all RunTests.c76_some_died RunTests.c76_ends RunTests.c76_module RunTests.c76_plan RunTests.ready_collect RunTests.c76_example RunTests.c76_alias_witness RunTests.c76_bar_witness",
  "Invariant: each test is queued, with a client, run or lost, as often as it was collected. ready_collect shows that what the runner collects meets the hypotheses.")
c("C77", "proved", "RunTests.c77_in_order RunTests.c77_all_sent RunTests.c77_all_told RunTests.c77_example",
  "Invariant over all interleavings.")
c("C78", "proved", "RunTests.c78_told RunTests.c78_ok_iff RunTests.c78_example RunTests.c78_subtest_witness RunTests.c78_skip_hides_error_witness RunTests.c78_loose_error_witness",
  "Induction over runs. Captured output is in C74; times are left out.")

c("C79", "proved", "Reload.c79_names Reload.c79_objects Reload.c79_functions Reload.c79_classes Reload.c79_reported Reload.c79_raises Reload.ex_fine Reload.c79_example Reload.c79_default_not_reported_witness Reload.c79_lines_witness Reload.c79_globals_witness Reload.c79_metaclass_witness Reload.c79_property_witness Reload.c79_library_witness Reload.c79_closure_witness",
  "Invariant over the walk: each object is as it was or as it should become. The xreload hooks are left out; the witnesses show what reloading does not do.")

c("C80", "proved", "DontTrace.c80_skipped DontTrace.c80_history DontTrace.c80_reloaded DontTrace.c80_fails DontTrace.c80_example DontTrace.c80_example_end DontTrace.c80_next_line_witness DontTrace.c80_last_line_witness DontTrace.c80_string_witness DontTrace.c80_edited",
  "Induction over the lines of the file. c80_fails: a tag on the last line makes every question about the file raise IndexError.")

c("C81", "proved", "Console.c81_run Console.c81_reply Console.c81_hello Console.c81_streams Console.c81_streams_run Console.c81_example Console.c81_example_no_exit Console.c81_print_witness Console.c81_exit_witness Console.c81_hook_witness",
  "Induction over the history, adding commands at the end. Compiling and running are parameters.")

c("C82", "proved", "StepInto.c82_inside StepInto.c82_passed StepInto.c82_request StepInto.c82_children StepInto.c82_listed StepInto.c82_no_error StepInto.c82_named StepInto.c82_offered StepInto.c82_lookup StepInto.c82_ordered StepInto.c82_stops StepInto.c82_stops_in StepInto.c82_child_visited_harmless StepInto.c82_example StepInto.c82_unlisted_witness StepInto.c82_two_codes_witness StepInto.c82_range_witness StepInto.c82_limit_witness StepInto.c82_loop_witness StepInto.c82_trace_line StepInto.c82_trace_return StepInto.c82_trace_return_only StepInto.c82_trace_example",
  "Inductions over code, targets and events; the binary search is proved correct. Which instructions are calls, and their names, are given. The witnesses show where the provisos are needed.")

c("C83", "proved", "Template.pred_some Template.c83_first Template.c83_again Template.c83_told Template.c83_valid_line Template.c83_changed Template.c83_example Template.c83_second_witness Template.c83_stale_witness Template.c83_same_line_witness Template.c83_included_witness Template.c83_removed Template.c83_removed_example",
  "Invariant over the loop through the breakpoints, then over histories. The lines of a template are given; one file.")

c("C84", "proved", "LineReq.c84_set_break LineReq.c84_set_break_no_policy LineReq.c84_set_break_old LineReq.c84_set_break_no_id LineReq.c84_one_line LineReq.c84_set_break_reject LineReq.c84_remove_break LineReq.c84_exception_break LineReq.c84_exception_break_old LineReq.c84_exception_break_plugin LineReq.c84_evaluate LineReq.c84_evaluate_old LineReq.c84_change_variable LineReq.c84_smart_step LineReq.c84_example LineReq.c84_tag_confusion_witness LineReq.c84_change_tab_witness LineReq.c84_eight_fields_witness LineReq.c84_locator_tag_witness LineReq.c84_exception_break_name",
  "Round trips from a specification of the client's writing, by induction over the text. ASCII white space and digits. The witnesses show where the provisos are needed.")

c("C85", "proved", "Complete.c85_token Complete.run_unique Complete.c85_replaces Complete.c85_names Complete.c85_attributes Complete.c85_example Complete.c85_call_witness Complete.c85_beyond_witness Complete.c85_lower_witness Complete.c85_twice_witness",
  "The cut is characterised by a maximal run, proved unique. Lower case, identifier characters and evaluation are arbitrary functions. The witnesses show what is offered where the provisos do not hold.")

c("C86", "proved", "ThreadIds.c86_str_inj ThreadIds.c86_unique ThreadIds.c86_stable ThreadIds.c86_forked ThreadIds.c86_found ThreadIds.ok_step ThreadIds.own_step ThreadIds.c86_example ThreadIds.c86_example_fork ThreadIds.c86_inherited_witness",
  "Invariant over the steps of all processes: whoever has a made id is kept alive at the address in it. The witness: before the ids are cleared a forked process gives the ids of its parent.")

c("C87", "proved", "Options.c87_settings Options.c87_client_os Options.c87_effects Options.c87_exit_zero Options.c87_presentation Options.c87_mappings Options.c87_last_request Options.c87_kept Options.c87_remove_returns Options.c87_example Options.c87_exit_zero_witness Options.c87_presentation_witness Options.c87_mappings_witness",
  "Induction over histories from their end, with a characterisation of the last entry of an options text. int, str, upper and unquote are arbitrary functions; rules, file watching and symlinks are not in this model. The witnesses: exit codes once ignored stay ignored for a later client that asks to stop at them; mappings of a client stay for the next.")

c("C88", "proved", "RealCase.c88_same_but_case RealCase.c88_no_memory RealCase.c88_real_mac RealCase.c88_real_windows RealCase.c88_new_file RealCase.c88_raised RealCase.mac_roots RealCase.drive_roots RealCase.c88_example RealCase.c88_example_windows RealCase.c88_root_witness RealCase.c88_clash_witness RealCase.c88_stale_witness RealCase.c88_raised_witness RealCase.c88_not_a_file",
  "Two invariants of the cache: remembered paths are right up to case (always), and agree with the file system (while it does not change), the latter because a path in lower case tells its root and parts. Lower case is letter by letter. Names with ~ on Windows are not in the model.")

c("C89", "proved", "TraceProp.c89_declare TraceProp.c89_same_run TraceProp.c89_seen TraceProp.c89_exact TraceProp.c89_all TraceProp.c89_command TraceProp.c89_example TraceProp.c89_example_run TraceProp.c89_base_witness TraceProp.c89_nested_witness TraceProp.c89_on_witness TraceProp.c89_command_witness",
  "Simulation between objects that change and properties that do not; mutual induction over trees of calls. The provisos are needed: witnesses show a subclass changing its base, and code left out being traced after a nested property.")

c("C90", "proved", "ThreadPatch.c90_start ThreadPatch.c90_undone ThreadPatch.c90_told ThreadPatch.c90_libraries ThreadPatch.c90_example ThreadPatch.py313_untouched ThreadPatch.py_ok ThreadPatch.c90_position_witness ThreadPatch.c90_errors_witness ThreadPatch.c90_names_witness ThreadPatch.c90_forgotten_witness",
  "All histories of patching, undoing and switching; the calls of Python's own functions are modelled with their checks of arguments. The debugger's notifications are taken not to fail.")

c("C91", "proved", "Requests.c91_response Requests.c91_continue Requests.c91_stack_trace Requests.c91_thread_says Requests.c91_thread_says_once Requests.c91_goto_says Requests.c91_variables_witness Requests.c91_example Requests.c91_example_correct",
  "On the model of C65. Correct: messages are requests with handlers and well-formed arguments (or messages that can't be read). That variables and stack traces say success also after an error is a finding (c91_variables_witness).")

c("C92","proved","StackSize.c92_enough StackSize.c92_inserted StackSize.c92_example StackSize.c92_unbalanced_witness StackSize.c92_labels_witness","For code as compilers make it: no way to a place arrives with more values than the place is compiled for (Balanced). The interpreter's table is a parameter; what is assumed of it is in Sane and Table. c92_unbalanced_witness shows the proviso is needed; c92_labels_witness is code for which no size is computed once a breakpoint is put into it.")

c("C93","proved","ReturnValues.c93_recorded ReturnValues.c93_trace ReturnValues.c93_callee_traced ReturnValues.c93_trace_example ReturnValues.c93_mon_over ReturnValues.c93_mon_over_only ReturnValues.c93_mon_into ReturnValues.c93_mon_into_my ReturnValues.c93_mon_return ReturnValues.c93_mon_off ReturnValues.c93_mon_running ReturnValues.c93_example ReturnValues.c93_mon_return_witness","c93_mon_return_witness: with sys.monitoring a step return records the value of another function too (the proviso); the condition in the code is a tuple, which is always true.")

c("C94", "proved", "Terminate.c94_all_killed Terminate.c94_asked Terminate.c94_only_descendants Terminate.c94_others Terminate.c94_gives_up Terminate.c94_windows Terminate.c94_example", "Executions interleave the routine with forks, exits of processes without living children and waits, without bound. Commands kill and pgrep succeed; signals have taken effect when the command returns; on Windows only the choice of processes is modelled.")
c("C95", "partial", "Terminate.c95_windows_partial Terminate.c95_windows_example Terminate.c95_text_partial Terminate.c95_ignored_witness Terminate.c95_killed_witness", "Holds on Windows for the children of the process. Violated on Linux and macOS: the set holds numbers and is asked for texts, so asking has no effect at all (c95_ignored_witness); only a process added as text is spared (c95_text_partial).")

c("C96", "partial", "ExcInfo.c96_trace_partial ExcInfo.c96_chain_partial ExcInfo.c96_id ExcInfo.c96_id_plain ExcInfo.c96_description ExcInfo.c96_example ExcInfo.c96_limit_witness ExcInfo.c96_negative_witness ExcInfo.c96_multiline_witness ExcInfo.c96_chain_cut_witness ExcInfo.c96_unprintable_witness", "Proved for chains in which every exception was raised and can be converted to a text, statements of one line, without a limit. Violated otherwise: a limit keeps the outermost frames of the exception itself, statements of several lines are shown with the text of other lines, the chain is cut at an exception without a traceback, and the trace is empty when the text of the exception cannot be computed.")

c("C97", "proved", "Disasm.c97_answers Disasm.c97_rows Disasm.c97_shown Disasm.c97_cached Disasm.c97_example Disasm.c97_empty_tuple_witness Disasm.c97_line_zero_witness", "The witnesses show that the two restrictions named in the statement are needed: with an empty tuple built after a load the loop never ends, with an instruction on line 0 every row is one too low.")

c("C98", "proved", "Startup.c98_script Startup.c98_settrace Startup.c98_once Startup.c98_released Startup.c98_enable_attach Startup.c98_is_attached Startup.c98_wait_for_attach Startup.c98_breakpoints Startup.c98_user_code Startup.c98_lock Startup.c98_goes_on Startup.c98_first_call Startup.c98_later_call Startup.c98_connect_fails Startup.c98_port Startup.c98_enable_attach_returns Startup.c98_stop Startup.c98_wait_returns Startup.c98_progress_example Startup.c98_example_script Startup.c98_example_threads Startup.c98_example_attach Startup.c98_failed_connect_witness Startup.c98_failed_forever_witness Startup.c98_port_in_use_witness Startup.c98_client_first_witness Startup.c98_replaced_client_witness", "The witnesses show what is outside of the statement: a failed connection is never retried, two ways in which _enable_attach waits for ever, and a configurationDone of a replaced client which counts for its successor.")

c("C99", "proved", "EvalName.c99_evaluate_name EvalName.c99_one_reading EvalName.c99_repr_reads_back EvalName.c99_given_attribute EvalName.c99_given_element EvalName.c99_given_value EvalName.c99_not_given EvalName.c99_not_given_value EvalName.c99_example EvalName.c99_example_key EvalName.c99_example_len EvalName.c99_sum_witness EvalName.c99_iterator_witness EvalName.c99_group_witness EvalName.c99_hidden_witness EvalName.c99_dict_attribute_witness EvalName.c99_enum_witness EvalName.c99_infinity_witness EvalName.c99_attribute_witness", "The conditions under which the claim holds are in the inductive predicate Shown; the witnesses show the code failing outside of each.")

c("C100", "proved", "TypeCache.c100_resolver TypeCache.c100_text TypeCache.c100_own_text TypeCache.c100_which TypeCache.c100_extension_first TypeCache.c100_table TypeCache.c100_example TypeCache.c100_failing_provider_witness TypeCache.c100_failing_later_witness TypeCache.c100_disguise_witness", "Holds under the conditions named in the statement; the witnesses show the dependence on history outside of them.")

c("C101", "proved", "Dispose.c101_delivered Dispose.c101_one_exit Dispose.c101_waited Dispose.c101_asked Dispose.c101_unregistered Dispose.c101_quiet_first Dispose.c101_process_end Dispose.c101_ends_after_program Dispose.c101_program_end_seen Dispose.c101_returns Dispose.c101_example Dispose.c101_example_end Dispose.c101_second_look_witness Dispose.c101_late_helper_witness Dispose.c101_forgotten_witness Dispose.c101_no_exit_witness",
  "Interleavings of any number of disposing threads, the writer, the check-alive thread and the end of the process. The provisos of the statement are shown to be needed by witnesses.")

c("C102", "partial", "Greenlets.c102_entries Greenlets.c102_only_paused Greenlets.c102_shown_at_stop Greenlets.c102_shown_partial Greenlets.c102_messages Greenlets.c102_told_once Greenlets.c102_example Greenlets.c102_vanish_witness Greenlets.c102_swapped_witness", "Proved for every history of switches, stops and resumes: one entry per paused greenlet, nothing else is shown, all paused greenlets of a thread are told once at its stop, and messages agree with the list of threads. That they stay shown until the thread goes on is proved only if a thread is resumed while no other is stopped; otherwise it is false of the code (witness).")

c("C103", "proved", "TopLevel.c103_uncaught TopLevel.c103_outermost TopLevel.c103_stem TopLevel.c103_example TopLevel.c103_outermost_example TopLevel.c103_first_call_witness TopLevel.c103_stop_witness TopLevel.c103_second_call_witness", "Proved for every history of calls, exceptions and stops in a thread. The provisos for threads without an entry point are in the statement; the witnesses show that each is needed.")

c("C104", "partial", "Jump.c104_line_of_offset_partial Jump.c104_visits_partial Jump.c104_example Jump.c104_while_witness Jump.c104_beyond_256_witness Jump.c104_recursion_witness", "Proved for every sequence of visits, whatever jump events were switched off, with three provisos; the witnesses show that the code violates the full statement where they fail.")

c("C105", "proved", "StepCalls.c105_targets StepCalls.c105_sound StepCalls.c105_complete StepCalls.c105_example StepCalls.c105_branch_witness StepCalls.c105_is_witness StepCalls.c105_in_witness StepCalls.c105_div_witness StepCalls.c105_many_witness", "For every function body made of the statements and expressions of the specification, of any size and depth; the witnesses show what goes wrong outside of it.")

c("C106", "proved", "Process.c106_exec Process.c106_exec_skip Process.c106_exec_told Process.c106_spawn Process.c106_spawn_skip Process.c106_direct Process.c106_functions Process.c106_skip_scope Process.c106_warn Process.c106_example Process.c106_code_witness Process.c106_replaced_witness Process.c106_created_witness Process.c106_order_witness Process.c106_warn_witness Process.c106_nested_witness", "With the provisos of the statement; the witnesses show what the code does where they fail.")
c("C107", "proved", "Process.Fork.c107_locks Process.Fork.c107_session Process.Fork.c107_apart Process.Fork.c107_told Process.Fork.c107_others Process.Fork.c107_example Process.Fork.c107_stopped_witness Process.Fork.c107_leak_witness", "For every history of processes, threads and locks.")

c("C108","proved","Goto.c108_answer Goto.c108_once Goto.c108_kept Goto.c108_answered Goto.c108_exact Goto.c108_not_raised Goto.c108_request Goto.c108_lost_witness Goto.c108_continue_lost_witness Goto.c108_raised_witness Goto.c108_file_witness Goto.c108_thread_witness Goto.c108_number_witness","Provisos named in the statement: nothing else happens to the thread while a jump is done, the session goes on, lines are numbers; the witnesses show what happens otherwise. The interpreter's own rules for setting f_lineno are a parameter.")

c("C109","proved","StopReason.c109_reasons StopReason.c109_reasons_settrace StopReason.c109_hit StopReason.c109_step_asked StopReason.c109_pause_witness StopReason.c109_race_witness StopReason.c109_entry_witness","With monitoring, under the proviso named in the statement (a return noticed while the thread is held); the witnesses show that case and the races which change the reason before it is told. Stops of template plugins are not modelled.")

c("C110","proved","EvalTimeout.c110_held_again EvalTimeout.c110_quick EvalTimeout.c110_off EvalTimeout.c110_on EvalTimeout.c110_lets_go EvalTimeout.c110_told_running EvalTimeout.c110_returns EvalTimeout.c110_late_callback_witness EvalTimeout.c110_overtaken_callback_witness EvalTimeout.c110_late_leave_witness","An evaluation which ends while the callback is in progress is excluded by the statement; the witnesses show what happens then. The interrupt of the evaluating thread is not modelled.")

c("C111","proved","Interp.c111_blocks Interp.c111_blocks_are Interp.c111_blocks_unique Interp.c111_symbol Interp.c111_finished Interp.c111_next Interp.c111_more Interp.c111_signalled Interp.c111_interrupts Interp.c111_second_interrupt_witness Interp.c111_raises_witness Interp.c111_late_interrupt_witness Interp.c111_lost_witness Interp.c111_ended_witness","Under the two provisos named in the statement; the witnesses show what happens without them. Memory of __future__ imports, GUI hooks and the redirection of stdin are not modelled.")
c("C112","proved","StdIn.c112_input_requested StdIn.c112_race_witness","Under the proviso named in the statement; the witness shows the race.")

c("C113","proved","SetVar.c113_place SetVar.c113_answer SetVar.c113_value_raises SetVar.c113_refused SetVar.c113_len SetVar.c113_no_expression SetVar.c113_set SetVar.c113_example SetVar.c113_frozenset_witness SetVar.c113_hex_witness SetVar.c113_hex_name_witness SetVar.c113_function_witness SetVar.c113_moved_witness SetVar.c113_set_names_witness","built on the variables, expressions and grammar of C99; assignments are any program's setattr/setitem for c113_place, the built-in ones for c113_answer")

c("C114", "proved", "MonThread.c114_own MonThread.c114_kept MonThread.c114_helper MonThread.c114_program MonThread.c114_stopped MonThread.c114_started MonThread.c114_started_under MonThread.c114_early MonThread.c114_example MonThread.c114_is_alive_witness MonThread.c114_outermost_witness", "Provisos in the statement: no first event inside is_alive of another thread; the outermost frame is of the program or one from which the thread is known. Witnesses show what happens without them.")

c("C115", "proved", "HideThreads.c115_enumerate HideThreads.c115_count HideThreads.c115_shutdown HideThreads.c115_untouched HideThreads.c115_saved HideThreads.c115_example HideThreads.c115_overlap_witness HideThreads.c115_unsupported_witness", "Provisos in the statement: hiding is on and threading.enumerate is as expected; no helper is begun while the first is being made (the flag is set before the functions are replaced).")

c("C116", "partial", "TemplateStep.c116_over_next TemplateStep.c116_over_outer TemplateStep.c116_over_sound TemplateStep.c116_into_next TemplateStep.c116_into_python TemplateStep.c116_into_helper TemplateStep.c116_django_over TemplateStep.c116_django_over_sound TemplateStep.c116_django_into TemplateStep.c116_django_back TemplateStep.c116_example TemplateStep.c116_first_step_witness TemplateStep.c116_stale_witness TemplateStep.c116_stale_example", "Missing: the Jinja2 step over is proved where the plugin knows the function of the step. The first step over after a breakpoint passes a line, and after a template function is gone its frame is still kept: both are false of the code (witnesses).")
c("C117", "partial", "TemplateVars.c117_django TemplateVars.c117_jinja_context TemplateVars.c117_jinja_local_partial TemplateVars.c117_jinja_only TemplateVars.c117_example TemplateVars.c117_underscore_witness TemplateVars.c117_false_witness TemplateVars.c117_shadow_witness TemplateVars.c117_change_witness", "Missing: variables of a Jinja2 template itself whose name has an underscore, whose value is false as a condition, or which hide one of the context; the code shows these wrongly (witnesses). Django is proved in full.")

c("C118", "partial", "Pytest.c118_run Pytest.c118_all Pytest.c118_status Pytest.c118_told Pytest.c118_node Pytest.c118_errors Pytest.c118_output_partial Pytest.c118_run_example Pytest.c118_told_example Pytest.c118_output_witness Pytest.c118_link_witness Pytest.c118_dir_witness", "Missing: the output of a test where pytest has output of its own; the code loses part of it (witness). Proviso: no path is meant by two files with different tests.")

c("C119","proved","ExcTables.c119_asked ExcTables.c119_exact ExcTables.c119_templates ExcTables.c119_armed ExcTables.c119_again_witness ExcTables.c119_text_witness ExcTables.c119_flag_witness","Histories of the commands that add and remove exception breakpoints (of Python and of templates) and the exception events set for sys.monitoring; reading the commands' text is C84. Provisos in the statement: an exception is removed before it is added again (for exactness); the old text form of CMD_SET_PY_EXCEPTION sets no events (witness).")

c("C120","proved","Canonical.c120_stable Canonical.c120_compiled Canonical.c120_value Canonical.c120_synthetic Canonical.c120_plain Canonical.c120_kept Canonical.c120_kept_iff Canonical.c120_again Canonical.c120_same_file Canonical.c120_exists Canonical.c120_base Canonical.c120_example Canonical.c120_eggs_witness Canonical.c120_zip_witness Canonical.c120_chdir_witness Canonical.c120_resolve_witness","Names of files: absolute and canonical path, base name, their caches, archives in paths, and whether a file exists. abspath, realpath, exists and the reading of archives are arbitrary functions that may change at any time. Provisos in the statement: nothing in the path looks like an archive that is none (witness for .eggs directories); posix paths.")

c("C121","partial","TemplateLines.c121_sound TemplateLines.c121_complete_partial TemplateLines.c121_example TemplateLines.c121_empty_witness","Which lines of a Django template are valid for breakpoints. Missing: completeness where a node has nodes in two of its lists, which is false of the code (witness: the empty part of a for).")

c("C122","proved","ComplServer.c122_answers ComplServer.c122_path ComplServer.c122_message_end ComplServer.c122_message_injective ComplServer.c122_together_witness ComplServer.c122_split_character_witness ComplServer.c122_path_lost_witness ComplServer.c122_file_not_quoted_witness ComplServer.c122_invalid_request_witness","With the provisos of the statement; the witnesses show that each is needed. What finds completions is an input.")

c("C123","proved","RunArgs.c123_line RunArgs.c123_line_unique RunArgs.c123_config RunArgs.c123_accepted RunArgs.c123_split RunArgs.c123_short_options_witness RunArgs.c123_missing_file_witness","The reading of a configuration file into lines, and of the environment variable into entries, is an input.")

c("C124", "proved", "RunFiles.c124_files RunFiles.c124_once RunFiles.c124_module RunFiles.c124_path RunFiles.c124_two_dots_witness RunFiles.c124_prefix_witness RunFiles.c124_first_dir_witness",
  "Paths are absolute and normal; fnmatchcase and importing are inputs. Proviso: no entry of sys.path is a textual beginning of the file's path without holding it (c124_prefix_witness). Several directories given may find a file several times.")

c("C125", "proved", "Logging.c125_log Logging.c125_files_distinct Logging.c125_listed Logging.c125_context Logging.c125_list_witness Logging.c125_back_witness Logging.c125_fork_witness",
  "Operations are single steps (initialization is locked); opening may fail, writing does not. The provisos are in the statement; each has a witness of what the code does without it.")

c("C126", "proved", "AutoReload.c126_watched AutoReload.c126_one_watcher AutoReload.c126_requests AutoReload.c126_reloaded AutoReload.c126_answer AutoReload.c126_message_witness AutoReload.c126_command AutoReload.c126_command_witness", "The text of the message for a file that no module has is wrong (witness): it names a module that has nothing to do with it.")

c("C127", "proved", "ThreadReqs.c127_pause_one ThreadReqs.c127_pause_all ThreadReqs.c127_continue ThreadReqs.c127_step_posted ThreadReqs.c127_step_done ThreadReqs.c127_threads_kept ThreadReqs.c127_unknown_witness ThreadReqs.c127_untraced_witness", "The witnesses show what a request for an unknown thread answers and that a pause for all threads marks the first thread even if it is not traced.")

c("C128", "proved", "RunFile.c128_start RunFile.c128_restored RunFile.c128_modules RunFile.c128_raise_witness RunFile.c128_prefix_witness", "c128_restored has the provisos of the statement: the file ends without an error and leaves a __file__, and a __file__ from before is not None.")

c("C129", "partial", "Tables.c129_matrix_partial Tables.c129_first_load_partial Tables.c129_vector_partial Tables.c129_frame_partial Tables.c129_row_witness Tables.c129_cell_witness Tables.c129_single_witness Tables.c129_frame_witness Tables.c129_label_witness",
  "False of the code as stated (see the witnesses): a request for one row of a matrix that is not the last, or for one cell, shows other cells; a request beyond the last column of a data frame fails. Proved for matrices if two or more rows are asked for or the last one is, for arrays of one dimension, and for data frames within their columns.")

c("C130", "proved", "AttachPid.c130_options AttachPid.c130_shell AttachPid.c130_attach AttachPid.c130_quote AttachPid.c130_unknown_witness AttachPid.c130_injection_witness",
  "For directories and values without quotes, backslashes and ends of lines, as in the statement; the witnesses show an unknown argument (the command runs forever) and a host with a double quote (other code is run). The shell, gdb and Python are specified in AttachPid.Spec as far as they are needed.")

c("C131", "proved", "ImportHook.c131_called ImportHook.c131_once ImportHook.c131_no_loss ImportHook.c131_statement ImportHook.c131_registered_first ImportHook.c131_late_witness", "Import statements as trees (imports within imports and within the functions called). Proviso named in the statement: registration while the hook is installed; c131_registered_first shows consoles meet it, c131_late_witness shows what is lost otherwise.")

c("C132", "proved", "VarPath.c132_row VarPath.c132_frame VarPath.c132_global VarPath.c132_expression VarPath.c132_by_id VarPath.c132_array VarPath.c132_attribute_witness VarPath.c132_more_witness VarPath.c132_array_witness VarPath.c132_globals_witness", "Provisos named in the statement: attribute names of containers do not look like names of items, no tabs in names. The witnesses show what happens without them, and that table views of nested values show another variable.")

c("C133", "partial", "Extensions.c133_call_partial Extensions.c133_calls_partial Extensions.c133_threads_partial Extensions.c133_example Extensions.c133_lost_witness Extensions.c133_twice_witness Extensions.c133_other_witness", "Proved for calls one after the other, and for all schedules after a first undisturbed call for the type. Missing because false of the code: first calls of two threads that meet (lost for good, or twice for good), modules that fail with another error than ImportError.")

c("C134", "proved", "LoadFull.c134_values LoadFull.c134_error LoadFull.c134_console LoadFull.c134_name_witness LoadFull.c134_timeout_example LoadFull.c134_expression_witness", "Names are proved for the console only: in a paused program the answer carries the first character of the name (witness). The error is proved for rows below a scope. For an expression typed in the console what is below its value is not found (witness).")
c("C135", "proved", "OldLine.c135_line OldLine.c135_past OldLine.lines_exist OldLine.c135_witness OldLine.c135_example", "Under the provisos named in the statement; witness for both.")
c("C136", "proved", "Shadow.c136_found Shadow.c136_goes_on Shadow.c136_not_imported Shadow.c136_missing Shadow.c136_example Shadow.c136_twice_witness Shadow.c136_xmlrpc_witness", "Directories of the path are not empty and do not end in a slash; a module with a missing attribute has a file. Witnesses: a directory twice on the path; xmlrpc is looked for under its old name.")

c("C137", "proved", "PluginBreaks.c137_stops PluginBreaks.c137_example PluginBreaks.c137_mixed_witness", "One kind for each file. Without that it is false: breakpoints of both kinds in one file share a table of numbers (witness). Lines are as set; that they are moved to valid ones is C83.")

c("C138", "proved", "FutureEnd.c138_end FutureEnd.c138_put FutureEnd.c138_example FutureEnd.c138_bytes_witness FutureEnd.c138_formfeed_witness FutureEnd.c138_blank_witness", "Under the provisos of the statement, with witnesses that both are needed. A line of blanks after the import puts the semicolon on a line of its own, which Python does not accept (witness).")

c("C139", "proved", "GuiLoop.c139_attr GuiLoop.c139_no_dot GuiLoop.c139_main GuiLoop.c139_matplotlib GuiLoop.c139_loop GuiLoop.c139_custom GuiLoop.c139_example GuiLoop.c139_longest_witness GuiLoop.c139_pyplot_witness",
  "For every world of modules and attributes and every history of pauses in every thread. Findings: modules of matplotlib imported after the first pause that finds one are never activated; a shorter module is not tried if the longest has no such attribute.")

c("C140", "proved", "Connect.c140_family Connect.c140_client Connect.c140_one Connect.c140_server Connect.c140_localhost Connect.c140_example Connect.c140_open_witness Connect.c140_unbound_witness Connect.c140_zero_witness",
  "For every list of addresses, every availability of options, every limit and every history of lookups. Findings: a client socket that cannot be connected is never closed; the error of a server socket that cannot be made is replaced by UnboundLocalError.")

c("C141", "proved", "NextTargets.c141_unique NextTargets.c141_lines NextTargets.c141_current NextTargets.c141_error NextTargets.c141_example NextTargets.c141_generator_witness",
  "For every frame and every list of lines, against a reader of the XML that is shown to read each text in one way. Finding: `dis.findlinestarts` is a generator, so the fallback to the current line is never used in CPython.")

json.dump({"claims": C}, open(os.path.join(os.path.dirname(__file__), "..", "MANIFEST.json"), "w"), indent=1)
