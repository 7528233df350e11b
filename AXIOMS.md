# Axioms of each theorem in the manifest

Generated by `tools/mkaxioms.py` from `#print axioms`.

## Quot.sound

* C114 `MonThread.c114_outermost_witness`

## none

* C05 `SeqNum.c05_race`
* C05 `SeqNum.c05_race_second_read`
* C07 `CmdQueue.c07_foreign_drain_reorders`
* C08 `Timeout.c08_dispose_race`
* C15 `Frames.c15_frame_tracked_twice`
* C16 `Grouping.c16_category_key_example`
* C51 `Exceptions.c51_add_keeps_stale`
* C28 `Filtering.c28_slash_root`
* C30 `Paths.c30_no_table`
* C30 `Paths.c30_sibling_mapped`
* C30 `Paths.c30_nested_roots`
* C32 `SourceMap.c32_race`
* C34 `Ids.c34_limit_exceeded`
* C43 `Columns.c43_empty`
* C44 `Stack.c44_start_ignored`
* C55 `Stack.c55_raised_twice`
* C46 `Stepping.c46_wrong_thread_woken`
* C68 `Wake.c68_burst_witness`
* C68 `Wake.c68_example`
* C69 `Evaluate.c69_await_witness`
* C70 `Evaluate.c70_no_frame_witness`
* C74 `Redirect.c74_raises`
* C74 `Redirect.c74_example`
* C74 `Redirect.c74_not_nested_witness`
* C74 `Redirect.c74_buffer_race_witness`
* C77 `RunTests.c77_example`
* C82 `StepInto.c82_child_visited_harmless`
* C82 `StepInto.c82_range_witness`
* C82 `StepInto.c82_limit_witness`
* C84 `LineReq.c84_locator_tag_witness`
* C89 `TraceProp.c89_example_run`
* C89 `TraceProp.c89_base_witness`
* C89 `TraceProp.c89_nested_witness`
* C89 `TraceProp.c89_on_witness`
* C90 `ThreadPatch.py_ok`
* C102 `Greenlets.c102_swapped_witness`
* C106 `Process.c106_nested_witness`
* C107 `Process.Fork.c107_example`
* C107 `Process.Fork.c107_stopped_witness`
* C112 `StdIn.c112_race_witness`
* C114 `MonThread.c114_own`
* C114 `MonThread.c114_is_alive_witness`
* C117 `TemplateVars.c117_change_witness`
* C118 `Pytest.c118_all`
* C118 `Pytest.c118_node`
* C118 `Pytest.c118_output_partial`
* C118 `Pytest.c118_run_example`
* C118 `Pytest.c118_told_example`
* C118 `Pytest.c118_output_witness`
* C118 `Pytest.c118_link_witness`
* C118 `Pytest.c118_dir_witness`
* C119 `ExcTables.c119_again_witness`
* C119 `ExcTables.c119_text_witness`
* C119 `ExcTables.c119_flag_witness`
* C120 `Canonical.c120_example`
* C120 `Canonical.c120_eggs_witness`
* C120 `Canonical.c120_zip_witness`
* C120 `Canonical.c120_chdir_witness`
* C120 `Canonical.c120_resolve_witness`
* C121 `TemplateLines.c121_example`
* C127 `ThreadReqs.c127_unknown_witness`
* C127 `ThreadReqs.c127_untraced_witness`
* C128 `RunFile.c128_prefix_witness`
* C136 `Shadow.c136_twice_witness`
* C136 `Shadow.c136_xmlrpc_witness`
* C140 `Connect.c140_unbound_witness`

## propext

* C09 `Auth.c09_no_token_lockout`
* C13 `ThreadEvents.c13_race`
* C13 `ThreadEvents.c13_no_return_example`
* C14 `Lifecycle.c14_suspend_one`
* C16 `Grouping.c16_group_contents`
* C21 `Exceptions.c21_exact`
* C51 `Exceptions.c51_filters`
* C23 `Dispatch.c23_start`
* C50 `Dispatch.c50_condition`
* C25 `TryExcept.c25_top_level`
* C25 `TryExcept.c25_retry_misreported`
* C29 `FilterCache.c29_module_not_in_key`
* C29 `FilterCache.c29_string_twice`
* C29 `FilterCache.c29_race`
* C31 `Paths.c31_restart`
* C32 `SourceMap.c32_past_the_end`
* C32 `SourceMap.c32_two_ranges`
* C33 `Ids.c33_race_two_ids`
* C33 `Ids.c33_race_refused`
* C34 `Ids.c34_answers`
* C38 `SafeRepr.c38_apostrophe_loses_text`
* C41 `FsNotify.c41_dangling_link`
* C41 `FsNotify.c41_trailing_slash`
* C41 `FsNotify.c41_set_order`
* C43 `Columns.c43_mapped_line`
* C43 `Columns.c43_unknown`
* C44 `Stack.c44_chain_cut`
* C44 `Stack.c44_names`
* C55 `Stack.c55_other_frame`
* C46 `Stepping.c46_suspending`
* C46 `Stepping.c46_woken_iff`
* C49 `Modules.c49_example`
* C58 `MonStep.c58_pause_missed`
* C58 `MonStep.c58_step_after_exception_lost`
* C58 `MonStep.c58_example`
* C58 `MonStep.c58_example_library`
* C59 `MonStep.c59_example_lost`
* C59 `MonStep.c59_example_hook`
* C64 `FrameEval.c64_example`
* C64 `FrameEval.c64_suspended_is_replaced`
* C64 `FrameEval.c64_name_not_served`
* C64 `FrameEval.c64_mid_change`
* C54 `Locks.c54_log_to_redirected_stream_witness`
* C54 `Locks.c54_log_file_fails_witness`
* C54 `Locks.c54_example`
* C68 `Wake.c68_stepping`
* C68 `Wake.c68_any_stepping`
* C69 `Evaluate.c69_walrus_lost_witness`
* C69 `Evaluate.c69_global_not_assigned_witness`
* C69 `Evaluate.c69_delete_witness`
* C69 `Evaluate.c69_stale_global_witness`
* C70 `Evaluate.c70_example`
* C71 `Evaluate.c71_set_expression_global_witness`
* C72 `Evaluate.c72_not_indented`
* C73 `Evaluate.c73_found`
* C74 `Redirect.c74_program_stream_kept`
* C77 `RunTests.c77_in_order`
* C78 `RunTests.c78_example`
* C78 `RunTests.c78_subtest_witness`
* C78 `RunTests.c78_skip_hides_error_witness`
* C78 `RunTests.c78_loose_error_witness`
* C79 `Reload.c79_raises`
* C79 `Reload.c79_example`
* C79 `Reload.c79_default_not_reported_witness`
* C79 `Reload.c79_lines_witness`
* C79 `Reload.c79_globals_witness`
* C79 `Reload.c79_metaclass_witness`
* C79 `Reload.c79_property_witness`
* C79 `Reload.c79_library_witness`
* C79 `Reload.c79_closure_witness`
* C80 `DontTrace.c80_reloaded`
* C81 `Console.c81_reply`
* C81 `Console.c81_hello`
* C81 `Console.c81_streams`
* C81 `Console.c81_streams_run`
* C82 `StepInto.c82_loop_witness`
* C84 `LineReq.c84_change_tab_witness`
* C85 `Complete.c85_example`
* C85 `Complete.c85_call_witness`
* C85 `Complete.c85_beyond_witness`
* C85 `Complete.c85_lower_witness`
* C87 `Options.c87_example`
* C87 `Options.c87_exit_zero_witness`
* C87 `Options.c87_presentation_witness`
* C87 `Options.c87_mappings_witness`
* C88 `RealCase.c88_raised`
* C88 `RealCase.c88_example`
* C88 `RealCase.c88_root_witness`
* C88 `RealCase.c88_clash_witness`
* C88 `RealCase.c88_stale_witness`
* C88 `RealCase.c88_raised_witness`
* C89 `TraceProp.c89_same_run`
* C89 `TraceProp.c89_seen`
* C89 `TraceProp.c89_exact`
* C89 `TraceProp.c89_command`
* C89 `TraceProp.c89_example`
* C89 `TraceProp.c89_command_witness`
* C90 `ThreadPatch.c90_example`
* C90 `ThreadPatch.c90_position_witness`
* C90 `ThreadPatch.c90_errors_witness`
* C90 `ThreadPatch.c90_names_witness`
* C90 `ThreadPatch.c90_forgotten_witness`
* C91 `Requests.c91_thread_says`
* C91 `Requests.c91_goto_says`
* C91 `Requests.c91_variables_witness`
* C93 `ReturnValues.c93_mon_off`
* C93 `ReturnValues.c93_mon_running`
* C93 `ReturnValues.c93_mon_return_witness`
* C95 `Terminate.c95_windows_example`
* C96 `ExcInfo.c96_description`
* C96 `ExcInfo.c96_example`
* C96 `ExcInfo.c96_limit_witness`
* C96 `ExcInfo.c96_negative_witness`
* C96 `ExcInfo.c96_multiline_witness`
* C96 `ExcInfo.c96_chain_cut_witness`
* C98 `Startup.c98_progress_example`
* C98 `Startup.c98_example_script`
* C98 `Startup.c98_example_threads`
* C98 `Startup.c98_example_attach`
* C98 `Startup.c98_failed_connect_witness`
* C98 `Startup.c98_replaced_client_witness`
* C100 `TypeCache.c100_extension_first`
* C100 `TypeCache.c100_failing_provider_witness`
* C100 `TypeCache.c100_failing_later_witness`
* C100 `TypeCache.c100_disguise_witness`
* C102 `Greenlets.c102_example`
* C102 `Greenlets.c102_vanish_witness`
* C103 `TopLevel.c103_example`
* C103 `TopLevel.c103_outermost_example`
* C103 `TopLevel.c103_first_call_witness`
* C103 `TopLevel.c103_stop_witness`
* C103 `TopLevel.c103_second_call_witness`
* C105 `StepCalls.c105_example`
* C105 `StepCalls.c105_branch_witness`
* C105 `StepCalls.c105_is_witness`
* C105 `StepCalls.c105_in_witness`
* C105 `StepCalls.c105_div_witness`
* C105 `StepCalls.c105_many_witness`
* C106 `Process.c106_exec_told`
* C106 `Process.c106_warn`
* C106 `Process.c106_order_witness`
* C106 `Process.c106_warn_witness`
* C107 `Process.Fork.c107_told`
* C108 `Goto.c108_lost_witness`
* C108 `Goto.c108_continue_lost_witness`
* C108 `Goto.c108_raised_witness`
* C108 `Goto.c108_number_witness`
* C111 `Interp.c111_blocks_unique`
* C111 `Interp.c111_next`
* C111 `Interp.c111_interrupts`
* C111 `Interp.c111_second_interrupt_witness`
* C111 `Interp.c111_raises_witness`
* C111 `Interp.c111_late_interrupt_witness`
* C111 `Interp.c111_lost_witness`
* C111 `Interp.c111_ended_witness`
* C114 `MonThread.c114_early`
* C115 `HideThreads.c115_saved`
* C116 `TemplateStep.c116_into_next`
* C116 `TemplateStep.c116_into_python`
* C116 `TemplateStep.c116_into_helper`
* C116 `TemplateStep.c116_django_over`
* C116 `TemplateStep.c116_django_over_sound`
* C116 `TemplateStep.c116_django_into`
* C116 `TemplateStep.c116_first_step_witness`
* C117 `TemplateVars.c117_underscore_witness`
* C117 `TemplateVars.c117_false_witness`
* C117 `TemplateVars.c117_shadow_witness`
* C118 `Pytest.c118_status`
* C122 `ComplServer.c122_together_witness`
* C122 `ComplServer.c122_split_character_witness`
* C122 `ComplServer.c122_path_lost_witness`
* C122 `ComplServer.c122_file_not_quoted_witness`
* C122 `ComplServer.c122_invalid_request_witness`
* C123 `RunArgs.c123_split`
* C124 `RunFiles.c124_two_dots_witness`
* C124 `RunFiles.c124_prefix_witness`
* C124 `RunFiles.c124_first_dir_witness`
* C126 `AutoReload.c126_requests`
* C126 `AutoReload.c126_answer`
* C126 `AutoReload.c126_message_witness`
* C126 `AutoReload.c126_command_witness`
* C128 `RunFile.c128_raise_witness`
* C129 `Tables.c129_row_witness`
* C129 `Tables.c129_cell_witness`
* C129 `Tables.c129_single_witness`
* C129 `Tables.c129_frame_witness`
* C131 `ImportHook.c131_no_loss`
* C131 `ImportHook.c131_statement`
* C131 `ImportHook.c131_late_witness`
* C132 `VarPath.c132_array_witness`
* C132 `VarPath.c132_globals_witness`
* C133 `Extensions.c133_example`
* C133 `Extensions.c133_lost_witness`
* C133 `Extensions.c133_twice_witness`
* C133 `Extensions.c133_other_witness`
* C134 `LoadFull.c134_name_witness`
* C134 `LoadFull.c134_timeout_example`
* C134 `LoadFull.c134_expression_witness`
* C136 `Shadow.c136_example`
* C137 `PluginBreaks.c137_example`
* C137 `PluginBreaks.c137_mixed_witness`
* C139 `GuiLoop.c139_main`
* C139 `GuiLoop.c139_pyplot_witness`
* C140 `Connect.c140_family`
* C140 `Connect.c140_localhost`
* C140 `Connect.c140_example`
* C140 `Connect.c140_open_witness`
* C140 `Connect.c140_zero_witness`
* C141 `NextTargets.c141_unique`

## propext, Classical.choice, Quot.sound

* C04 `Writer.c04_fifo`
* C04 `Writer.c04_at_most_once`
* C04 `Writer.c04_nothing_after_exit`
* C04 `Writer.c04_complete_at_exit`
* C04 `Writer.c04_complete_at_empty`
* C04 `Writer.c04_progress`
* C04 `Writer.c04_no_accept_after_kill`
* C05 `SeqNum.c05_unique_nodup_partial`
* C07 `CmdQueue.c07_fifo`
* C07 `CmdQueue.c07_drain_complete`
* C08 `Timeout.c08_at_most_once`
* C08 `Timeout.c08_never_early`
* C08 `Timeout.c08_disposed_never_called`
* C08 `Timeout.c08_not_lost`
* C08 `Timeout.c08_due_called`
* C08 `Timeout.c08_wait`
* C08 `Timeout.c08_released`
* C13 `ThreadEvents.c13_sent_once`
* C13 `ThreadEvents.c13_poll_tracks_alive`
* C15 `Frames.c15_resolves`
* C15 `Frames.c15_only_suspended`
* C15 `Frames.c15_expired`
* C15 `Frames.c15_thread`
* C16 `Grouping.c16_children`
* C16 `Grouping.c16_no_loss`
* C16 `Grouping.c16_frame_no_loss`
* C16 `Grouping.c16_frame_returned`
* C16 `Grouping.c16_frame_sorted`
* C17 `Breakpoints.c17_refines`
* C17 `Breakpoints.c17_unreached`
* C17 `Breakpoints.c17_refines_no_mapping`
* C17 `Breakpoints.c17_other_files`
* C17 `Breakpoints.c17_dap`
* C17 `Breakpoints.c17_reapply_forgets_adjustment`
* C18 `Breakpoints.c18_nearest_before`
* C19 `Breakpoints.c19_ids_fresh`
* C20 `HitCond.c20_relation`
* C20 `HitCond.c20_bare_number`
* C20 `HitCond.c20_sequence`
* C20 `HitCond.c20_counted_once`
* C24 `Exceptions.c24_stop_iff`
* C24 `Exceptions.c24_user_uncaught`
* C51 `Exceptions.c51_options`
* C51 `Exceptions.c51_remove`
* C22 `Dispatch.c22_partial`
* C25 `TryExcept.c25_decision`
* C25 `TryExcept.c25_source`
* C25 `TryExcept.c25_leaving_reported`
* C27 `Filtering.c27_rules`
* C27 `Filtering.c27_classes`
* C27 `Filtering.c27_short_file_name`
* C28 `Filtering.c28_roots`
* C29 `FilterCache.c29_answers`
* C29 `FilterCache.c29_patterns`
* C30 `Paths.c30_slash_roots`
* C30 `Paths.c30_current`
* C31 `Paths.c31_resolves`
* C31 `Paths.c31_resolves_again`
* C31 `Paths.c31_distinct`
* C31 `Paths.c31_stable`
* C32 `SourceMap.c32_refines`
* C32 `SourceMap.c32_round_trip`
* C32 `SourceMap.c32_stuck`
* C33 `Ids.c33_translates_back`
* C33 `Ids.c33_distinct`
* C33 `Ids.c33_refused`
* C33 `Ids.c33_same`
* C34 `Ids.c34_resolves`
* C34 `Ids.c34_same_iff`
* C34 `Ids.c34_step_into`
* C35 `Xml.c35_unquote`
* C35 `Xml.c35_readable`
* C35 `Xml.c35_var_texts`
* C35 `Xml.c35_io`
* C35 `Xml.c35_escaped_inside`
* C35 `Xml.c35_file_with_ampersand`
* C36 `LogMsg.c36_value`
* C36 `LogMsg.c36_trimmed`
* C36 `LogMsg.c36_literal`
* C37 `CmdLine.c37_debug_never_ends`
* C38 `SafeRepr.c38_exact`
* C38 `SafeRepr.c38_empty_set`
* C39 `WinQuote.c39_round_trip`
* C39 `WinQuote.c39_rules`
* C39 `WinQuote.c39_newline`
* C39 `WinQuote.c39_split`
* C39 `WinQuote.c39_own_split`
* C39 `WinQuote.c39_last_backslash`
* C39 `WinQuote.c39_doubled`
* C40 `PatchArgs.c40_is_python`
* C40 `PatchArgs.c40_not_python`
* C40 `PatchArgs.c40_script`
* C40 `PatchArgs.c40_module`
* C40 `PatchArgs.c40_code`
* C40 `PatchArgs.c40_untouched`
* C40 `PatchArgs.c40_forms`
* C40 `PatchArgs.c40_code_text`
* C40 `PatchArgs.c40_again`
* C40 `PatchArgs.c40_child`
* C40 `PatchArgs.c40_windows`
* C40 `PatchArgs.c40_windows_script`
* C40 `PatchArgs.c40_windows_module`
* C40 `PatchArgs.c40_windows_code`
* C41 `FsNotify.c41_scan`
* C41 `FsNotify.c41_initial`
* C41 `FsNotify.c41_changes`
* C42 `Resolver.c42_all_items`
* C42 `Resolver.c42_deque_fails`
* C44 `Stack.c44_page`
* C44 `Stack.c44_pages`
* C45 `Stack.c45_chain`
* C55 `Stack.c55_whole`
* C55 `Stack.c55_from_frame`
* C46 `Stepping.c46_not_missed`
* C46 `Stepping.c46_not_invented`
* C47 `Monitor.c47`
* C48 `Monitor.c48_line`
* C48 `Monitor.c48_start`
* C48 `Monitor.c48_on`
* C56 `Monitor.c56_line`
* C56 `Monitor.c56_function`
* C56 `Monitor.c56_example`
* C56 `Monitor.c56_generator`
* C56 `Monitor.c56_unknown_thread`
* C57 `Monitor.c57`
* C53 `Containers.c53_dict_child`
* C53 `Containers.c53_dict_resolves`
* C53 `Containers.c53_set_resolves`
* C53 `Containers.c53_set_change`
* C53 `Containers.c53_dict_assigns_large`
* C58 `MonStep.c58_same_stops`
* C58 `MonStep.c58_program`
* C58 `MonStep.c58_library_breakpoints_never`
* C58 `MonStep.c58_line_breakpoint`
* C58 `MonStep.c58_function_breakpoint`
* C59 `MonStep.c59_into_line`
* C59 `MonStep.c59_into_return`
* C59 `MonStep.c59_into_only`
* C59 `MonStep.c59_over_line`
* C59 `MonStep.c59_over_return`
* C59 `MonStep.c59_over_only`
* C59 `MonStep.c59_over_goes_on`
* C59 `MonStep.c59_return`
* C59 `MonStep.c59_return_only`
* C59 `MonStep.c59_run_only`
* C59 `MonStep.c59_pause`
* C59 `MonStep.c59_over_lost`
* C59 `MonStep.c59_return_lost`
* C60 `Bytecode.c60_does_the_same`
* C60 `Bytecode.c60_does_nothing_else`
* C61 `Bytecode.c61_every_entry_asks`
* C61 `Bytecode.c61_first_entry_asks`
* C61 `Bytecode.c61_stops_announced`
* C61 `Bytecode.c61_checks_obeyed`
* C61 `Bytecode.c61_asks_only_wanted`
* C62 `Assemble.c62_faithful`
* C62 `Assemble.c62_table_fits`
* C62 `Assemble.c62_small_is_built`
* C63 `Assemble.c63_round_trip`
* C64 `FrameEval.c64_serves`
* C64 `FrameEval.c64_fails_only_copies`
* C64 `FrameEval.c64_copy_kept`
* C64 `FrameEval.c64_removed_fails`
* C65 `Requests.c65_accounted`
* C65 `Requests.c65_at_most_once`
* C65 `Requests.c65_own_request`
* C65 `Requests.c65_exactly_once`
* C65 `Requests.c65_thread_answers`
* C65 `Requests.c65_every_request_answered`
* C66 `MonExc.c66_user_unhandled`
* C66 `MonExc.c66_user_unhandled_once`
* C66 `MonExc.c66_raised`
* C66 `MonExc.c66_unhandled`
* C66 `MonExc.c66_unhandled_iff`
* C66 `MonExc.c66_events_enough`
* C66 `MonExc.c66_entry_removed`
* C66 `MonExc.Ex.c66_example`
* C66 `MonExc.Ex.c66_example_unhandled`
* C66 `MonExc.Ex.c66_example_handled`
* C66 `MonExc.Ex.c66_runpy_witness`
* C66 `MonExc.Ex.c66_pure_build_witness`
* C66 `MonExc.Ex.c66_twice_witness`
* C66 `MonExc.Ex.c66_stale_witness`
* C66 `MonExc.Ex.c66_expression_again_witness`
* C67 `IgnoreExc.c67_tag`
* C67 `IgnoreExc.c67_ignored`
* C67 `IgnoreExc.c67_command`
* C67 `IgnoreExc.c67_client_lines_stay`
* C67 `IgnoreExc.Ex.c67_example`
* C67 `IgnoreExc.Ex.c67_string_witness`
* C67 `IgnoreExc.Ex.c67_restored_witness`
* C54 `Locks.c54_no_deadlock`
* C54 `Locks.c54_someone_moves`
* C54 `Locks.c54_exclusive`
* C54 `Locks.c54_all_released`
* C54 `Locks.c54_exactly`
* C68 `Wake.c68_first_at_once`
* C68 `Wake.c68_leaves_in_time`
* C68 `Wake.c68_wrong_thread_witness`
* C68 `Wake.c68_collected_witness`
* C71 `Evaluate.c71_set`
* C71 `Evaluate.c71_set_313_partial`
* C71 `Evaluate.c71_set_global`
* C71 `Evaluate.c71_raising_sets_nothing`
* C71 `Evaluate.c71_twice_witness`
* C71 `Evaluate.c71_raised_success_witness`
* C71 `Evaluate.c71_globals_name_witness`
* C71 `Evaluate.c71_runs`
* C71 `Evaluate.c71_globals_prefix`
* C72 `Evaluate.c72_relative`
* C72 `Evaluate.c72_example`
* C72 `Evaluate.c72_string_witness`
* C73 `Evaluate.c73_example`
* C73 `Evaluate.c73_underscore_witness`
* C73 `Evaluate.c73_base_class_witness`
* C74 `Redirect.c74_client`
* C74 `Redirect.c74_buffer_whole`
* C75 `RunTests.c75_selected`
* C75 `RunTests.c75_example`
* C75 `RunTests.c75_run_test_witness`
* C75 `RunTests.c75_class_hides_method_witness`
* C76 `RunTests.c76_batch`
* C76 `RunTests.c76_at_most_once`
* C76 `RunTests.c76_all`
* C76 `RunTests.c76_some_died`
* C76 `RunTests.c76_ends`
* C76 `RunTests.c76_module`
* C76 `RunTests.c76_plan`
* C76 `RunTests.ready_collect`
* C76 `RunTests.c76_example`
* C76 `RunTests.c76_alias_witness`
* C76 `RunTests.c76_bar_witness`
* C79 `Reload.c79_names`
* C79 `Reload.c79_objects`
* C79 `Reload.c79_functions`
* C79 `Reload.c79_classes`
* C79 `Reload.c79_reported`
* C79 `Reload.ex_fine`
* C80 `DontTrace.c80_skipped`
* C80 `DontTrace.c80_history`
* C80 `DontTrace.c80_fails`
* C80 `DontTrace.c80_example`
* C80 `DontTrace.c80_example_end`
* C80 `DontTrace.c80_next_line_witness`
* C80 `DontTrace.c80_last_line_witness`
* C80 `DontTrace.c80_string_witness`
* C80 `DontTrace.c80_edited`
* C81 `Console.c81_example`
* C81 `Console.c81_example_no_exit`
* C81 `Console.c81_print_witness`
* C81 `Console.c81_exit_witness`
* C81 `Console.c81_hook_witness`
* C82 `StepInto.c82_inside`
* C82 `StepInto.c82_listed`
* C82 `StepInto.c82_ordered`
* C82 `StepInto.c82_stops`
* C82 `StepInto.c82_stops_in`
* C82 `StepInto.c82_trace_line`
* C83 `Template.c83_valid_line`
* C83 `Template.c83_changed`
* C84 `LineReq.c84_set_break`
* C84 `LineReq.c84_set_break_no_policy`
* C84 `LineReq.c84_set_break_old`
* C84 `LineReq.c84_set_break_no_id`
* C84 `LineReq.c84_set_break_reject`
* C84 `LineReq.c84_exception_break`
* C84 `LineReq.c84_evaluate`
* C84 `LineReq.c84_evaluate_old`
* C84 `LineReq.c84_example`
* C84 `LineReq.c84_tag_confusion_witness`
* C85 `Complete.c85_names`
* C87 `Options.c87_settings`
* C87 `Options.c87_client_os`
* C87 `Options.c87_effects`
* C87 `Options.c87_exit_zero`
* C87 `Options.c87_mappings`
* C87 `Options.c87_last_request`
* C87 `Options.c87_kept`
* C87 `Options.c87_remove_returns`
* C88 `RealCase.c88_same_but_case`
* C88 `RealCase.c88_no_memory`
* C88 `RealCase.c88_real_mac`
* C88 `RealCase.c88_real_windows`
* C88 `RealCase.c88_new_file`
* C88 `RealCase.mac_roots`
* C89 `TraceProp.c89_declare`
* C90 `ThreadPatch.c90_start`
* C90 `ThreadPatch.c90_told`
* C92 `StackSize.c92_enough`
* C92 `StackSize.c92_inserted`
* C92 `StackSize.c92_example`
* C92 `StackSize.c92_unbalanced_witness`
* C92 `StackSize.c92_labels_witness`
* C93 `ReturnValues.c93_recorded`
* C93 `ReturnValues.c93_mon_over`
* C93 `ReturnValues.c93_mon_over_only`
* C93 `ReturnValues.c93_mon_into`
* C93 `ReturnValues.c93_mon_into_my`
* C93 `ReturnValues.c93_mon_return`
* C94 `Terminate.c94_asked`
* C94 `Terminate.c94_gives_up`
* C96 `ExcInfo.c96_chain_partial`
* C97 `Disasm.c97_answers`
* C97 `Disasm.c97_rows`
* C97 `Disasm.c97_shown`
* C98 `Startup.c98_port_in_use_witness`
* C98 `Startup.c98_client_first_witness`
* C100 `TypeCache.c100_resolver`
* C100 `TypeCache.c100_text`
* C100 `TypeCache.c100_own_text`
* C100 `TypeCache.c100_which`
* C101 `Dispose.c101_delivered`
* C101 `Dispose.c101_one_exit`
* C101 `Dispose.c101_waited`
* C101 `Dispose.c101_asked`
* C101 `Dispose.c101_unregistered`
* C101 `Dispose.c101_quiet_first`
* C101 `Dispose.c101_process_end`
* C101 `Dispose.c101_ends_after_program`
* C101 `Dispose.c101_program_end_seen`
* C101 `Dispose.c101_returns`
* C101 `Dispose.c101_example`
* C101 `Dispose.c101_example_end`
* C101 `Dispose.c101_second_look_witness`
* C101 `Dispose.c101_late_helper_witness`
* C101 `Dispose.c101_forgotten_witness`
* C101 `Dispose.c101_no_exit_witness`
* C102 `Greenlets.c102_entries`
* C102 `Greenlets.c102_only_paused`
* C102 `Greenlets.c102_shown_at_stop`
* C102 `Greenlets.c102_shown_partial`
* C102 `Greenlets.c102_messages`
* C102 `Greenlets.c102_told_once`
* C103 `TopLevel.c103_uncaught`
* C103 `TopLevel.c103_outermost`
* C104 `Jump.c104_line_of_offset_partial`
* C104 `Jump.c104_visits_partial`
* C104 `Jump.c104_example`
* C105 `StepCalls.c105_targets`
* C105 `StepCalls.c105_sound`
* C105 `StepCalls.c105_complete`
* C106 `Process.c106_exec`
* C106 `Process.c106_spawn`
* C107 `Process.Fork.c107_locks`
* C107 `Process.Fork.c107_session`
* C107 `Process.Fork.c107_apart`
* C107 `Process.Fork.c107_others`
* C107 `Process.Fork.c107_leak_witness`
* C108 `Goto.c108_answer`
* C108 `Goto.c108_kept`
* C108 `Goto.c108_exact`
* C108 `Goto.c108_not_raised`
* C108 `Goto.c108_request`
* C108 `Goto.c108_file_witness`
* C108 `Goto.c108_thread_witness`
* C109 `StopReason.c109_reasons`
* C109 `StopReason.c109_reasons_settrace`
* C109 `StopReason.c109_step_asked`
* C110 `EvalTimeout.c110_lets_go`
* C110 `EvalTimeout.c110_told_running`
* C110 `EvalTimeout.c110_returns`
* C112 `StdIn.c112_input_requested`
* C113 `SetVar.c113_example`
* C113 `SetVar.c113_hex_witness`
* C113 `SetVar.c113_hex_name_witness`
* C113 `SetVar.c113_function_witness`
* C113 `SetVar.c113_moved_witness`
* C113 `SetVar.c113_set_names_witness`
* C116 `TemplateStep.c116_over_next`
* C116 `TemplateStep.c116_over_outer`
* C116 `TemplateStep.c116_over_sound`
* C116 `TemplateStep.c116_example`
* C116 `TemplateStep.c116_stale_witness`
* C116 `TemplateStep.c116_stale_example`
* C117 `TemplateVars.c117_django`
* C117 `TemplateVars.c117_jinja_context`
* C117 `TemplateVars.c117_jinja_local_partial`
* C117 `TemplateVars.c117_jinja_only`
* C117 `TemplateVars.c117_example`
* C118 `Pytest.c118_run`
* C119 `ExcTables.c119_asked`
* C119 `ExcTables.c119_exact`
* C119 `ExcTables.c119_armed`
* C120 `Canonical.c120_stable`
* C120 `Canonical.c120_compiled`
* C120 `Canonical.c120_value`
* C120 `Canonical.c120_synthetic`
* C120 `Canonical.c120_kept`
* C120 `Canonical.c120_kept_iff`
* C120 `Canonical.c120_again`
* C120 `Canonical.c120_same_file`
* C120 `Canonical.c120_exists`
* C122 `ComplServer.c122_answers`
* C122 `ComplServer.c122_path`
* C122 `ComplServer.c122_message_injective`
* C123 `RunArgs.c123_config`
* C123 `RunArgs.c123_accepted`
* C124 `RunFiles.c124_files`
* C124 `RunFiles.c124_once`
* C124 `RunFiles.c124_path`
* C125 `Logging.c125_log`
* C125 `Logging.c125_files_distinct`
* C125 `Logging.c125_context`
* C126 `AutoReload.c126_watched`
* C126 `AutoReload.c126_one_watcher`
* C128 `RunFile.c128_start`
* C128 `RunFile.c128_restored`
* C128 `RunFile.c128_modules`
* C129 `Tables.c129_matrix_partial`
* C129 `Tables.c129_first_load_partial`
* C129 `Tables.c129_vector_partial`
* C131 `ImportHook.c131_called`
* C131 `ImportHook.c131_once`
* C132 `VarPath.c132_row`
* C132 `VarPath.c132_frame`
* C132 `VarPath.c132_global`
* C132 `VarPath.c132_expression`
* C132 `VarPath.c132_by_id`
* C133 `Extensions.c133_call_partial`
* C133 `Extensions.c133_calls_partial`
* C133 `Extensions.c133_threads_partial`
* C134 `LoadFull.c134_values`
* C134 `LoadFull.c134_console`
* C137 `PluginBreaks.c137_stops`
* C138 `FutureEnd.c138_end`
* C138 `FutureEnd.c138_put`
* C139 `GuiLoop.c139_attr`
* C139 `GuiLoop.c139_custom`

## propext, Quot.sound

* C01 `Reader.c01_chunk_independence`
* C01 `Reader.c01_one_piece`
* C01 `Reader.c01_negative_length_splits`
* C02 `Reader.c02_http_roundtrip`
* C02 `Reader.c02_c03_wire_roundtrip`
* C03 `Reader.c03_line_roundtrip`
* C03 `Reader.c02_c03_wire_roundtrip`
* C04 `Writer.c04_lost_before_exit`
* C05 `SeqNum.c05_even_positive`
* C05 `SeqNum.c05_unique_partial`
* C06 `AnyThread.c06_at_most_once`
* C06 `AnyThread.c06_exactly_once`
* C07 `CmdQueue.c07_no_loss_no_dup`
* C07 `CmdQueue.c07_right_thread`
* C08 `Timeout.c08_deadline`
* C08 `Timeout.c08_no_spin`
* C09 `Auth.c09_executed_only_if_authorised`
* C09 `Auth.c09_token_not_disclosed`
* C09 `Auth.c09_refused`
* C10 `Auth.c10_lockout`
* C10 `Auth.c10_before_limit`
* C11 `Notify.c11_one_stop_per_request`
* C11 `Notify.c11_continue_only_after_stop`
* C11 `Notify.c11_all_resumed`
* C11 `Notify.c11_resume_reported`
* C11 `Notify.c11_stop_reported`
* C11 `Notify.c11_pause_reported`
* C11 `Notify.c11_stops_need_not_alternate`
* C12 `Notify.c12_exactly_once`
* C12 `Notify.c12_first_continue`
* C12 `Notify.c12_raising_callback_loses_others`
* C13 `ThreadEvents.c13_decided_alternate`
* C13 `ThreadEvents.c13_sent_alternate_partial`
* C13 `ThreadEvents.c13_off`
* C13 `ThreadEvents.c13_no_return`
* C14 `Lifecycle.c14_suspend_all`
* C14 `Lifecycle.c14_resume_all`
* C14 `Lifecycle.c14_resume_one`
* C14 `Lifecycle.c14_resume_frame`
* C14 `Lifecycle.c14_suspend_then_resume`
* C15 `Frames.c15_no_error`
* C16 `Grouping.c16_category`
* C16 `Grouping.c16_sort_key`
* C16 `Grouping.c16_category_key`
* C16 `Grouping.c16_category_key_id`
* C17 `Breakpoints.c17_alias_names`
* C17 `Breakpoints.c17_remove_source_mapped`
* C18 `Breakpoints.c18_executable_stays`
* C18 `Breakpoints.c18_none_before`
* C18 `Breakpoints.c18_code_lines`
* C18 `Breakpoints.c18_reported`
* C19 `Breakpoints.c19_answers_in_order`
* C20 `HitCond.c20_no_condition`
* C20 `HitCond.c20_leading_zero_never_stops`
* C21 `Exceptions.c21_most_specific`
* C21 `Exceptions.c21_none`
* C21 `Exceptions.c21_order_independent`
* C24 `Exceptions.c24_suspended`
* C24 `Exceptions.c24_control_flow`
* C24 `Exceptions.c24_plugin`
* C52 `Exceptions.c52_unhandled`
* C22 `Dispatch.c22_function_partial`
* C22 `Dispatch.c22_identical_files`
* C22 `Dispatch.c22_race`
* C22 `Dispatch.c22_smart_step_hides_breakpoint`
* C22 `Dispatch.c22_filters_widened`
* C22 `Dispatch.c22_library_not_retraced`
* C23 `Dispatch.c23_run`
* C23 `Dispatch.c23_over_only`
* C23 `Dispatch.c23_over_stops`
* C23 `Dispatch.c23_over_return`
* C23 `Dispatch.c23_return_only`
* C23 `Dispatch.c23_return_stops`
* C23 `Dispatch.c23_into_line`
* C23 `Dispatch.c23_into_return`
* C23 `Dispatch.c23_over_sequence`
* C23 `Dispatch.c23_over_sequence_stops`
* C23 `Dispatch.c23_start_return_filtered`
* C23 `Dispatch.c23_into_callee_traced`
* C23 `Dispatch.c23_into_return_stops`
* C23 `Dispatch.c23_dont_trace`
* C23 `Dispatch.c23_traced`
* C23 `Dispatch.c23_coroutine_line`
* C23 `Dispatch.c23_generator_return`
* C23 `Dispatch.c23_yield`
* C23 `Dispatch.c23_generator_example`
* C23 `Dispatch.c23_suspends_iff`
* C23 `Dispatch.c23_return_outermost`
* C23 `Dispatch.c23_skip_notice`
* C23 `Dispatch.c23_skip_notice_example`
* C23 `Dispatch.c23_skip_notice_pydev_witness`
* C50 `Dispatch.c50_stop_only_if`
* C50 `Dispatch.c50_hit_line`
* C50 `Dispatch.c50_logpoint_never_stops`
* C25 `TryExcept.c25_regions`
* C25 `TryExcept.c25_except_star_fails`
* C25 `TryExcept.c25_except_star_misattributed`
* C26 `Filtering.c26_components`
* C26 `Filtering.c26_unix`
* C26 `Filtering.c26_drive`
* C26 `Filtering.c26_altsep`
* C27 `Filtering.c27_first`
* C27 `Filtering.c27_matches`
* C28 `Filtering.c28_fix_roots`
* C28 `Filtering.c28_synthetic`
* C30 `Paths.c30_to_client`
* C30 `Paths.c30_to_server`
* C30 `Paths.c30_round_trip`
* C30 `Paths.c30_unmapped`
* C30 `Paths.c30_one_separator`
* C34 `Ids.c34_step_targets`
* C34 `Ids.c34_step_unknown`
* C34 `Ids.c34_first_fifteen`
* C35 `Xml.c35_unescape`
* C35 `Xml.c35_no_markup`
* C35 `Xml.c35_var`
* C35 `Xml.c35_trim`
* C35 `Xml.c35_frame`
* C35 `Xml.c35_thread`
* C36 `LogMsg.c36_unbalanced`
* C36 `LogMsg.c36_percent_fails`
* C36 `LogMsg.c36_percent_lost`
* C36 `LogMsg.c36_tuple_fails`
* C37 `CmdLine.c37_parse`
* C37 `CmdLine.c37_terminates`
* C37 `CmdLine.c37_round_trip`
* C38 `SafeRepr.c38_bounded`
* C38 `SafeRepr.c38_default_bound`
* C38 `SafeRepr.c38_long_collection`
* C38 `SafeRepr.c38_long_dict`
* C38 `SafeRepr.c38_long_text`
* C38 `SafeRepr.c38_too_deep`
* C38 `SafeRepr.c38_self`
* C40 `PatchArgs.c40_again_code_witness`
* C40 `PatchArgs.c40_windows_untouched`
* C40 `PatchArgs.c40_windows_quotes`
* C42 `Resolver.c42_resolves`
* C42 `Resolver.c42_resolves_bucket`
* C42 `Resolver.c42_dictionary`
* C42 `Resolver.c42_initial_zero`
* C42 `Resolver.c42_bucket_zero`
* C42 `Resolver.c42_hex_more`
* C42 `Resolver.c42_hex_name`
* C43 `Columns.c43_column`
* C43 `Columns.c43_shown`
* C43 `Columns.c43_several_lines`
* C44 `Stack.c44_full`
* C45 `Stack.c45_from_none`
* C55 `Stack.c55_line`
* C55 `Stack.c55_chained_order`
* C46 `Stepping.c46_collected`
* C46 `Stepping.c46_limbo`
* C47 `Monitor.c47_equal_code`
* C56 `Monitor.c56_stale`
* C57 `Monitor.c57_example`
* C57 `Monitor.c57_other_thread`
* C49 `Modules.c49_once`
* C49 `Modules.c49_announced`
* C49 `Modules.c49_alone`
* C49 `Modules.c49_race`
* C49 `Modules.c49_no_deadlock`
* C53 `Containers.c53_dict`
* C53 `Containers.c53_dict_all`
* C53 `Containers.c53_dict_assigns`
* C53 `Containers.c53_set`
* C53 `Containers.c53_example`
* C53 `Containers.c53_same_name`
* C53 `Containers.c53_exact`
* C53 `Containers.c53_set_exact`
* C53 `Containers.c53_set_change_equal`
* C53 `Containers.c53_set_change_example`
* C58 `MonStep.c58_does_switch_off`
* C58 `MonStep.c58_library_breakpoints`
* C59 `MonStep.c59_example_return`
* C60 `Bytecode.c60_program_kept`
* C60 `Bytecode.c60_refused`
* C60 `Bytecode.c60_example`
* C61 `Bytecode.c61_answer`
* C61 `Bytecode.c61_no`
* C61 `Bytecode.c61_second_copy_missed`
* C61 `Bytecode.c61_second_copy_met`
* C62 `Assemble.c62_example`
* C63 `Assemble.c63_read_back`
* C63 `Assemble.c63_example`
* C65 `Requests.c65_answered_at_once`
* C65 `Requests.c65_bad_answered`
* C65 `Requests.c65_unauthenticated`
* C65 `Requests.c65_not_launched`
* C65 `Requests.c65_session_goes_on`
* C65 `Requests.c65_goto_answered`
* C65 `Requests.c65_continue_answered`
* C65 `Requests.c65_any_answers`
* C65 `Requests.c65_continue_not_before`
* C65 `Requests.c65_left_to_thread`
* C65 `Requests.c65_example`
* C65 `Requests.c65_harmless_example`
* C65 `Requests.c65_unhandled_witness`
* C65 `Requests.c65_session_ends_witness`
* C65 `Requests.c65_thread_gone_witness`
* C65 `Requests.c65_goto_continue_witness`
* C65 `Requests.c65_continue_waits_witness`
* C65 `Requests.c65_system_exit_witness`
* C65 `Requests.c65_completions_witness`
* C65 `Requests.c65_drain_witness`
* C65 `Requests.c65_goto_again_witness`
* C68 `Wake.c68_in_order`
* C68 `Wake.c68_in_time`
* C68 `Wake.c68_leaves`
* C68 `Wake.c68_leaves_only`
* C68 `Wake.c68_new_and_removed`
* C68 `Wake.c68_event_kept`
* C68 `Wake.c68_registered`
* C68 `Wake.c68_woken`
* C68 `Wake.c68_alone_woken`
* C69 `Evaluate.c69_sees`
* C69 `Evaluate.c69_local_written`
* C69 `Evaluate.c69_local_exact`
* C69 `Evaluate.c69_new_name_kept`
* C69 `Evaluate.c69_module_written`
* C69 `Evaluate.c69_globals_kept`
* C69 `Evaluate.c69_reading_changes_nothing`
* C69 `Evaluate.c69_example`
* C70 `Evaluate.c70_once`
* C70 `Evaluate.c70_expression`
* C70 `Evaluate.c70_statements_only_in_repl`
* C70 `Evaluate.c70_statements`
* C70 `Evaluate.c70_exec`
* C71 `Evaluate.c71_set_expression`
* C72 `Evaluate.c72_all_or_none`
* C72 `Evaluate.c72_removed`
* C72 `Evaluate.c72_idempotent`
* C74 `Redirect.c74_restored`
* C74 `Redirect.c74_own`
* C74 `Redirect.c74_buffer`
* C74 `Redirect.c74_other`
* C75 `RunTests.c75_only`
* C75 `RunTests.c75_no_empty_suite`
* C77 `RunTests.c77_all_sent`
* C77 `RunTests.c77_all_told`
* C78 `RunTests.c78_told`
* C78 `RunTests.c78_ok_iff`
* C81 `Console.c81_run`
* C82 `StepInto.c82_passed`
* C82 `StepInto.c82_request`
* C82 `StepInto.c82_children`
* C82 `StepInto.c82_no_error`
* C82 `StepInto.c82_named`
* C82 `StepInto.c82_offered`
* C82 `StepInto.c82_lookup`
* C82 `StepInto.c82_example`
* C82 `StepInto.c82_unlisted_witness`
* C82 `StepInto.c82_two_codes_witness`
* C82 `StepInto.c82_trace_return`
* C82 `StepInto.c82_trace_return_only`
* C82 `StepInto.c82_trace_example`
* C83 `Template.pred_some`
* C83 `Template.c83_first`
* C83 `Template.c83_again`
* C83 `Template.c83_told`
* C83 `Template.c83_example`
* C83 `Template.c83_second_witness`
* C83 `Template.c83_stale_witness`
* C83 `Template.c83_same_line_witness`
* C83 `Template.c83_included_witness`
* C83 `Template.c83_removed`
* C83 `Template.c83_removed_example`
* C84 `LineReq.c84_one_line`
* C84 `LineReq.c84_remove_break`
* C84 `LineReq.c84_exception_break_old`
* C84 `LineReq.c84_exception_break_plugin`
* C84 `LineReq.c84_change_variable`
* C84 `LineReq.c84_smart_step`
* C84 `LineReq.c84_eight_fields_witness`
* C84 `LineReq.c84_exception_break_name`
* C85 `Complete.c85_token`
* C85 `Complete.run_unique`
* C85 `Complete.c85_replaces`
* C85 `Complete.c85_attributes`
* C85 `Complete.c85_twice_witness`
* C86 `ThreadIds.c86_str_inj`
* C86 `ThreadIds.c86_unique`
* C86 `ThreadIds.c86_stable`
* C86 `ThreadIds.c86_forked`
* C86 `ThreadIds.c86_found`
* C86 `ThreadIds.ok_step`
* C86 `ThreadIds.own_step`
* C86 `ThreadIds.c86_example`
* C86 `ThreadIds.c86_example_fork`
* C86 `ThreadIds.c86_inherited_witness`
* C87 `Options.c87_presentation`
* C88 `RealCase.drive_roots`
* C88 `RealCase.c88_example_windows`
* C88 `RealCase.c88_not_a_file`
* C89 `TraceProp.c89_all`
* C90 `ThreadPatch.c90_undone`
* C90 `ThreadPatch.c90_libraries`
* C90 `ThreadPatch.py313_untouched`
* C91 `Requests.c91_response`
* C91 `Requests.c91_continue`
* C91 `Requests.c91_stack_trace`
* C91 `Requests.c91_thread_says_once`
* C91 `Requests.c91_example`
* C91 `Requests.c91_example_correct`
* C93 `ReturnValues.c93_trace`
* C93 `ReturnValues.c93_callee_traced`
* C93 `ReturnValues.c93_trace_example`
* C93 `ReturnValues.c93_example`
* C94 `Terminate.c94_all_killed`
* C94 `Terminate.c94_only_descendants`
* C94 `Terminate.c94_others`
* C94 `Terminate.c94_windows`
* C94 `Terminate.c94_example`
* C95 `Terminate.c95_windows_partial`
* C95 `Terminate.c95_text_partial`
* C95 `Terminate.c95_ignored_witness`
* C95 `Terminate.c95_killed_witness`
* C96 `ExcInfo.c96_trace_partial`
* C96 `ExcInfo.c96_id`
* C96 `ExcInfo.c96_id_plain`
* C96 `ExcInfo.c96_unprintable_witness`
* C97 `Disasm.c97_cached`
* C97 `Disasm.c97_example`
* C97 `Disasm.c97_empty_tuple_witness`
* C97 `Disasm.c97_line_zero_witness`
* C98 `Startup.c98_script`
* C98 `Startup.c98_settrace`
* C98 `Startup.c98_once`
* C98 `Startup.c98_released`
* C98 `Startup.c98_enable_attach`
* C98 `Startup.c98_is_attached`
* C98 `Startup.c98_wait_for_attach`
* C98 `Startup.c98_breakpoints`
* C98 `Startup.c98_user_code`
* C98 `Startup.c98_lock`
* C98 `Startup.c98_goes_on`
* C98 `Startup.c98_first_call`
* C98 `Startup.c98_later_call`
* C98 `Startup.c98_connect_fails`
* C98 `Startup.c98_port`
* C98 `Startup.c98_enable_attach_returns`
* C98 `Startup.c98_stop`
* C98 `Startup.c98_wait_returns`
* C98 `Startup.c98_failed_forever_witness`
* C99 `EvalName.c99_evaluate_name`
* C99 `EvalName.c99_one_reading`
* C99 `EvalName.c99_repr_reads_back`
* C99 `EvalName.c99_given_attribute`
* C99 `EvalName.c99_given_element`
* C99 `EvalName.c99_given_value`
* C99 `EvalName.c99_not_given`
* C99 `EvalName.c99_not_given_value`
* C99 `EvalName.c99_example`
* C99 `EvalName.c99_example_key`
* C99 `EvalName.c99_example_len`
* C99 `EvalName.c99_sum_witness`
* C99 `EvalName.c99_iterator_witness`
* C99 `EvalName.c99_group_witness`
* C99 `EvalName.c99_hidden_witness`
* C99 `EvalName.c99_dict_attribute_witness`
* C99 `EvalName.c99_enum_witness`
* C99 `EvalName.c99_infinity_witness`
* C99 `EvalName.c99_attribute_witness`
* C100 `TypeCache.c100_table`
* C100 `TypeCache.c100_example`
* C103 `TopLevel.c103_stem`
* C104 `Jump.c104_while_witness`
* C104 `Jump.c104_beyond_256_witness`
* C104 `Jump.c104_recursion_witness`
* C106 `Process.c106_exec_skip`
* C106 `Process.c106_spawn_skip`
* C106 `Process.c106_direct`
* C106 `Process.c106_functions`
* C106 `Process.c106_skip_scope`
* C106 `Process.c106_example`
* C106 `Process.c106_code_witness`
* C106 `Process.c106_replaced_witness`
* C106 `Process.c106_created_witness`
* C108 `Goto.c108_once`
* C108 `Goto.c108_answered`
* C109 `StopReason.c109_hit`
* C109 `StopReason.c109_pause_witness`
* C109 `StopReason.c109_race_witness`
* C109 `StopReason.c109_entry_witness`
* C110 `EvalTimeout.c110_held_again`
* C110 `EvalTimeout.c110_quick`
* C110 `EvalTimeout.c110_off`
* C110 `EvalTimeout.c110_on`
* C110 `EvalTimeout.c110_late_callback_witness`
* C110 `EvalTimeout.c110_overtaken_callback_witness`
* C110 `EvalTimeout.c110_late_leave_witness`
* C111 `Interp.c111_blocks`
* C111 `Interp.c111_blocks_are`
* C111 `Interp.c111_symbol`
* C111 `Interp.c111_finished`
* C111 `Interp.c111_more`
* C111 `Interp.c111_signalled`
* C113 `SetVar.c113_place`
* C113 `SetVar.c113_answer`
* C113 `SetVar.c113_value_raises`
* C113 `SetVar.c113_refused`
* C113 `SetVar.c113_len`
* C113 `SetVar.c113_no_expression`
* C113 `SetVar.c113_set`
* C113 `SetVar.c113_frozenset_witness`
* C114 `MonThread.c114_kept`
* C114 `MonThread.c114_helper`
* C114 `MonThread.c114_program`
* C114 `MonThread.c114_stopped`
* C114 `MonThread.c114_started`
* C114 `MonThread.c114_started_under`
* C114 `MonThread.c114_example`
* C115 `HideThreads.c115_enumerate`
* C115 `HideThreads.c115_count`
* C115 `HideThreads.c115_shutdown`
* C115 `HideThreads.c115_untouched`
* C115 `HideThreads.c115_example`
* C115 `HideThreads.c115_overlap_witness`
* C115 `HideThreads.c115_unsupported_witness`
* C116 `TemplateStep.c116_django_back`
* C118 `Pytest.c118_told`
* C118 `Pytest.c118_errors`
* C119 `ExcTables.c119_templates`
* C120 `Canonical.c120_plain`
* C120 `Canonical.c120_base`
* C121 `TemplateLines.c121_sound`
* C121 `TemplateLines.c121_complete_partial`
* C121 `TemplateLines.c121_empty_witness`
* C122 `ComplServer.c122_message_end`
* C123 `RunArgs.c123_line`
* C123 `RunArgs.c123_line_unique`
* C123 `RunArgs.c123_short_options_witness`
* C123 `RunArgs.c123_missing_file_witness`
* C124 `RunFiles.c124_module`
* C125 `Logging.c125_listed`
* C125 `Logging.c125_list_witness`
* C125 `Logging.c125_back_witness`
* C125 `Logging.c125_fork_witness`
* C126 `AutoReload.c126_reloaded`
* C126 `AutoReload.c126_command`
* C127 `ThreadReqs.c127_pause_one`
* C127 `ThreadReqs.c127_pause_all`
* C127 `ThreadReqs.c127_continue`
* C127 `ThreadReqs.c127_step_posted`
* C127 `ThreadReqs.c127_step_done`
* C127 `ThreadReqs.c127_threads_kept`
* C129 `Tables.c129_frame_partial`
* C129 `Tables.c129_label_witness`
* C130 `AttachPid.c130_options`
* C130 `AttachPid.c130_shell`
* C130 `AttachPid.c130_attach`
* C130 `AttachPid.c130_quote`
* C130 `AttachPid.c130_unknown_witness`
* C130 `AttachPid.c130_injection_witness`
* C131 `ImportHook.c131_registered_first`
* C132 `VarPath.c132_array`
* C132 `VarPath.c132_attribute_witness`
* C132 `VarPath.c132_more_witness`
* C134 `LoadFull.c134_error`
* C135 `OldLine.c135_line`
* C135 `OldLine.c135_past`
* C135 `OldLine.lines_exist`
* C135 `OldLine.c135_witness`
* C135 `OldLine.c135_example`
* C136 `Shadow.c136_found`
* C136 `Shadow.c136_goes_on`
* C136 `Shadow.c136_not_imported`
* C136 `Shadow.c136_missing`
* C138 `FutureEnd.c138_example`
* C138 `FutureEnd.c138_bytes_witness`
* C138 `FutureEnd.c138_formfeed_witness`
* C138 `FutureEnd.c138_blank_witness`
* C139 `GuiLoop.c139_no_dot`
* C139 `GuiLoop.c139_matplotlib`
* C139 `GuiLoop.c139_loop`
* C139 `GuiLoop.c139_example`
* C139 `GuiLoop.c139_longest_witness`
* C140 `Connect.c140_client`
* C140 `Connect.c140_one`
* C140 `Connect.c140_server`
* C141 `NextTargets.c141_lines`
* C141 `NextTargets.c141_current`
* C141 `NextTargets.c141_error`
* C141 `NextTargets.c141_example`
* C141 `NextTargets.c141_generator_witness`
