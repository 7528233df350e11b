# Places where the code does not do what a user relies on

Each entry names the theorem that shows the behaviour of the model (a concrete execution or input), or says "read, not proved".

## Proved about the model

| behaviour | theorem |
|---|---|
| Two threads can give the same sequence number to two messages (`next_seq += 2` without a lock). | `SeqNum.c05_race` |
| The writer can stop with a message still in the queue (queue empty, message put, kill flag set). | `Writer.c04_lost_before_exit` |
| `Content-Length: 0` and negative lengths end the session. | Reader area (see MANIFEST, C01/C02) |
| A timeout callback can run although its `with` block was left (two different locks). | Timeout area (C08) |
| Without a token any `authorize` request locks the session. | Auth area (C09, C10) |
| Thread 'exited' can be sent before 'started'. | `ThreadEvents.c13_race` |
| A callback that raises when the threads resume loses the later ones. | Notify area (C12) |
| A frame tracked twice makes `untrack_all` raise. | Frames area (C15) |
| Stale entries after `add_break_on_exception`. | Exceptions area (C51) |
| `reapply_breakpoints` forgets the adjustment of lines; `remove_breakpoint` ignores source mappings. | Breakpoints area (C17) |
| Hit condition "05" never stops. | HitCond area (C20) |
| Identical functions in two files share the skip cache. | `Dispatch.c22_identical_files` |
| An event in progress stores a skip after breakpoints changed. | `Dispatch.c22_race` |
| Smart step into stops tracing callees, so that breakpoints there are missed. | `Dispatch.c22_smart_step_hides_breakpoint` |
| Widened filters and breakpoints in library files are not seen by running frames. | `Dispatch.c22_filters_widened`, `Dispatch.c22_library_not_retraced` |
| `except*` is not seen as a handler; a loop that retries is reported as unhandled. | TryExcept area (C25) |
| The root "/" matches nothing; the rule "/a/**" beats a rule for a file with a short name. | Filtering area (C27, C28) |
| Filter cache ignores the module name; equal `<string>` code shares a file type; race when roots change. | FilterCache area (C29) |
| A path-mapping root without a final slash maps its siblings; nested client roots do not round-trip. | Paths area (C30) |
| Changing the path mapping restarts the numbers of source references. | Paths area (C31) |
| Source mapping: wrong end of a range, two ranges, a mapping that cannot be removed, cache race. | `c32_past_the_end`, `c32_two_ranges`, `c32_stuck` and others (C32) |
| Translation of ids without a lock loses or repeats ids. | Ids area (C33) |
| More than 15 step-in targets are sent. | Ids area (C34) |
| Attributes for files and threads in XML are escaped before quoting. | Xml area (C35) |
| `%` in a log message is not escaped; `{a, b}` fails. | LogMsg area (C36) |
| `--DEBUG` makes the command-line parser loop forever. | CmdLine area (C37) |
| Truncated text with apostrophes loses characters; collections with exactly the limit are cut; empty set shown as `{}`. | SafeRepr area (C38) |
| `str_to_args_windows` loses a final backslash and doubles quotes; `$` before a newline in `quote_arg_win32`. | WinQuote area (C39) |
| Untouched arguments are joined without quoting; literal quotes are removed. | PatchArgs area (C40) |
| File watching: order of sets, dangling links, final slash. | FsNotify area (C41) |
| "more" of a deque cannot be expanded; hexadecimal format is lost; bucket size 0 loops. | `c42_deque_fails`, `c42_hex_more`, `c42_hex_name` (C42) |
| Column of "" is 1; columns are computed in the wrong line when a source mapping moves lines. | `c43_empty`, `c43_mapped_line` |
| `startFrame` without `levels` is ignored; an exception without a traceback hides the ones after it. | `c44_start_ignored`, `c44_chain_cut` |
| `raise X from None` still lists the suppressed context. | `c45_from_none` |
| The registry of stepping threads: wrong thread woken, collected threads, threads in limbo. | `c46_wrong_thread_woken`, `c46_collected`, `c46_limbo`, `c46_suspending` |
| Cached information of a function is found for an equal function of another file. | `Monitor.c47_equal_code` |
| With sys.monitoring: generators that are resumed, unknown threads, a stale handler, another thread's pause. | `Monitor.c56_generator`, `Monitor.c56_unknown_thread`, `Monitor.c56_stale`, `Monitor.c57_other_thread` |
| Two answers that announce the same new module: the later request fails, earlier modules are never announced. | `Modules.c49_race` |
| Two rows of a dictionary with one name; a set shows one item more than the limit; the mark with exactly the limit. | `Containers.c53_same_name`, `Containers.c53_set_exact`, `Containers.c53_exact` |
| A frame that raises twice is shown twice with one id; the order of frames of chained exceptions. | `c55_raised_twice`, `c55_chained_order` |
| With sys.monitoring and any file filter, breakpoints in library files are never reached, also if no rule excludes the file. | `MonStep.c58_library_breakpoints_never` |
| A pause during a step over or step return is not noticed in the functions that are called. | `MonStep.c58_pause_missed` |
| A step after a stop at an exception is lost if there is no breakpoint. | `MonStep.c58_step_after_exception_lost` |
| A step over or step return whose frame is left by an exception is lost for good. | `MonStep.c59_over_lost`, `MonStep.c59_return_lost` |
| A step return to a function marked `@DontTrace` is lost. | `MonStep.c59_return_lost`, `MonStep.c59_example_hook` |
| Before Python 3.10 breakpoints put into bytecode are missed in the second copy of a line (a `finally` block). | `Bytecode.c61_second_copy_missed` |
| With the frame evaluator, removing all breakpoints of a file makes a generator that runs a rewritten copy fail with an exception when it goes on. | `FrameEval.c64_removed_fails` |
| With the frame evaluator, a generator that began before a breakpoint was set gets rewritten code when it goes on, at an offset that counts in the old code. | `FrameEval.c64_suspended_is_replaced` |
| With the frame evaluator, a function breakpoint is not looked at in a generator that runs a copy. | `FrameEval.c64_name_not_served` |
| Requests of the protocol which the debugger knows but has no handler for (`cancel`, `restart`, `loadedSources`, ...) get no answer. | `Requests.c65_unhandled_witness` |
| A `pause` or step for an id that isn't a thread's (0), `scopes` for an id that isn't a frame's, `setBreakpoints` without a path or a message that isn't a request ends the whole session without an answer. | `Requests.c65_session_ends_witness` |
| A `goto` for a thread that has ended is never answered; a step for it is answered with success. | `Requests.c65_thread_gone_witness` |
| A `continue` handled while a thread is about to do a `goto` makes the answer to the `goto` disappear. | `Requests.c65_goto_continue_witness` |
| A `continue` when nothing is stopped is answered only when some later stop is resumed. | `Requests.c65_continue_waits_witness` |
| `raise SystemExit` evaluated in the console leaves the request unanswered. | `Requests.c65_system_exit_witness` |
| Completions for a frame that is gone are answered by a message that isn't JSON. | `Requests.c65_completions_witness` |
| An exception while a stack request is checked loses the other requests taken from the queue in that round. | `Requests.c65_drain_witness` |
| After a `goto` that worked, a thread released because the debugger is disposed of tries the jump again and fails with an exception (`int("")`). | `Requests.c65_goto_again_witness` |
| sys.monitoring: an exception of a script run with `runpy.run_path` inside a `try` is reported as unhandled although the caller handles it. | `MonExc.Ex.c66_runpy_witness` |
| sys.monitoring, pure Python build: the walk to the outermost frame starts at the handler's own frame, so an exception leaving a function that looks like a start-up function (a `run...` function of a script named `runpy.py`) is never reported as unhandled; the compiled build reports it. | `MonExc.Ex.c66_pure_build_witness` |
| sys.monitoring, compiled build: with both filters on, an exception raised at module level of a program started by `runpy` is reported twice. | `MonExc.Ex.c66_twice_witness` |
| sys.monitoring: the same exception object raised again in a callback without a caller is not reported as unhandled; the exception and frame of the last report are kept alive by the thread. | `MonExc.Ex.c66_stale_witness` |
| sys.monitoring: while an exception leaves a frame, the expression of a 'raised' breakpoint is evaluated a second time and `__exception__` stays in the frame's variables (in a module: its globals). | `MonExc.Ex.c66_expression_again_witness` |
| `#@IgnoreException` inside a string literal counts as the comment. | `IgnoreExc.Ex.c67_string_witness` |
| If a file gets back the size and time of an earlier version, the marks of the version in between may be used. | `IgnoreExc.Ex.c67_restored_witness` |
| Deadlock: with debug logging on and the log going to a redirected `sys.stderr` (as after a fork), a thread which logs a message it sends and a thread which prints wait for each other. | `Locks.c54_log_to_redirected_stream_witness` |
| Deadlock: with debug logging on, if the log file cannot be opened, the traceback is printed with the log's lock held. | `Locks.c54_log_file_fails_witness` |
| A repl evaluation keeps the lock of the redirections until it ends; a request which redirects output waits for it with the main lock held, so every other request waits too. | `Locks.c54_example` |
| `_update_stepping_info(info)`: the loops reuse the name `info`, so the event set is that of whichever thread came last, not of the resumed one, which notices only at its next poll. | `Wake.c68_wrong_thread_witness` |
| `_get_related_thread` answers `False` for a collected thread, and the caller tests `is not None`: such infos are kept for ever, count as stepping, and if last in the loop no thread is woken. | `Wake.c68_collected_witness` |
| A suspended thread does one command per round and clears its event in each: from the third command of a burst on, each waits for a poll interval. | `Wake.c68_burst_witness` |
| Code with a top-level `await` is evaluated with globals and locals swapped: nested scopes see the debugger's module instead of the program. | `Evaluate.c69_await_witness` |
| An assignment expression run as a statement (the repl without a frame, the XML protocol) is lost. | `Evaluate.c69_walrus_lost_witness` |
| Assigning a global in a function's frame, even after `global`, does not change it; later evaluations see the new value, the program the old one. The same for `setExpression`, which answers success. | `Evaluate.c69_global_not_assigned_witness`, `Evaluate.c71_set_expression_global_witness` |
| `del x` of a local: no effect up to Python 3.12, `x = None` from 3.13. | `Evaluate.c69_delete_witness` |
| An expression which calls a function that assigns a global, and then reads the global, gets the old value. | `Evaluate.c69_stale_global_witness` |
| An evaluate request for a frame which is gone by the time it is handled succeeds with `None`. | `Evaluate.c70_no_frame_witness` |
| From Python 3.13 setting a variable evaluates the expression twice. | `Evaluate.c71_twice_witness` |
| `setVariable` with an expression that raises answers success with the old value. | `Evaluate.c71_raised_success_witness` |
| A local variable whose name begins with `Globals` cannot be set; the answer is success. | `Evaluate.c71_globals_name_witness` |
| Dedenting code changes the text of quoted strings of several lines. | `Evaluate.c72_string_witness` |
| Private attributes of classes whose name begins with an underscore, and of base classes, are not found. | `Evaluate.c73_underscore_witness`, `Evaluate.c73_base_class_witness` |
| If output begins to go to the client while a test's output is caught, the end of the test removes that redirection and it is never put back. | `Redirect.c74_not_nested_witness` |
| `IOBuf`: a text written while another thread takes the contents can be lost. | `Redirect.c74_buffer_race_witness` |
| With files and their tests given, a class which defines `runTest` is run though it was not asked for. | `RunTests.c75_run_test_witness` |
| `--tests A,A.check` does not run `check`, though `--tests A.check` does. | `RunTests.c75_class_hides_method_witness` |
| In parallel, a test class bound to two names of its module has its tests run four times. | `RunTests.c76_alias_witness` |
| In parallel, the tests of a file with a bar in its name are silently not run. | `RunTests.c76_bar_witness` |
| A test of which a subtest failed is reported `ok`. | `RunTests.c78_subtest_witness` |
| A test which failed and is skipped in `tearDown` is reported as skipped (Python before 3.11; later the runner never sees that a test was skipped and reports `ok`). | `RunTests.c78_skip_hides_error_witness` |
| An error told outside a test (Django failing to set up a test) is lost, except before the first test. | `RunTests.c78_loose_error_witness` |
| Reloading a module where only a default was changed applies it but reports that nothing changed | `Reload.c79_default_not_reported_witness` |
| Reloading leaves a function which only moved with its old line numbers, so breakpoints set at its new lines are not hit | `Reload.c79_lines_witness` |
| Functions added by a reload have the scratch namespace as globals, not the module's: they do not see what the program assigns to the module's variables | `Reload.c79_globals_witness` |
| Classes whose metaclass is defined in the reloaded module are silently not updated | `Reload.c79_metaclass_witness` |
| Properties are silently not updated | `Reload.c79_property_witness` |
| After changing which function a name is imported from, reloading overwrites the code of the library's function for all its users | `Reload.c79_library_witness` |
| A function whose number of free variables changed keeps code and defaults but gets the new docstring | `Reload.c79_closure_witness` |
| A @DontTrace comment on the last line of a file (or followed only by decorator lines) makes every check of that file raise IndexError (`while k <= len(lines)`), so its functions are not handled | `DontTrace.c80_fails`, `DontTrace.c80_last_line_witness` |
| A one-line function tagged @DontTrace hides the function on the next line too | `DontTrace.c80_next_line_witness` |
| A string which contains #@DontTrace counts as the tag | `DontTrace.c80_string_witness` |
| In the debug console `print(1, 2)` is shown as two lines: each write is split into lines on its own | `Console.c81_print_witness` |
| After `exit()` in the debug console the next command is not run: it is appended to the line that exited (its buffer is not reset) | `Console.c81_exit_witness` |
| Any command in the debug console replaces the program's `sys.excepthook` for good | `Console.c81_hook_witness` |
| Stepping into a chosen call stops in the wrong function if an operator, property or `f(*args)` runs Python code after a chosen builtin: such instructions are not listed and count as the call before them | `StepInto.c82_unlisted_witness` |
| Stepping into a call in one of two lambdas (generators) of one call can stop in the other: they are told apart by offsets in different code objects | `StepInto.c82_two_codes_witness` |
| A line range which cuts through a multi-line call with nested code fails the whole request (`None` child, `AttributeError`) | `StepInto.c82_range_witness` |
| The limit of fifteen targets is not kept if it is reached among nested calls | `StepInto.c82_limit_witness` |
| A call at a lower offset is never offered, even if in a loop it is yet to come | `StepInto.c82_loop_witness` |
| Two breakpoints set in one request in a template already rendered: if the first is on an invalid line it is moved and reported as verified, then silently put back by the consolidation for the second, and never hit | `Template.c83_second_witness` |
| A verified template breakpoint whose line becomes invalid when the template is edited stays reported as verified and is never hit, if there is a valid line before it | `Template.c83_stale_witness` |
| In Django, breakpoints in an included or extended template are checked against the lines of the outer template (`context.template`) | `Template.c83_included_witness` |
| Setting a variable in a Django or Jinja2 frame always raises `TypeError`: `change_variable` passes `scope=`, which `_change_variable` does not take | read, not modelled |
| `reapply_breakpoints` does not pass `on_changed_breakpoint_state`, so verifying a template breakpoint after a source mapping was set calls `None` | read, not modelled |
| In the line protocol a condition with a tab, the word `NEW_LINE_CHAR` and a new line comes out changed, although it contains no tag: new lines are restored before tabs, so the tags are confused. | `LineReq.c84_tag_confusion_witness` |
| In the line protocol a value with a tab cannot be assigned to a variable: its first part is taken for part of the name. | `LineReq.c84_change_tab_witness` |
| The tab tag in the path of a variable is never restored: the result of `attr.replace(..)` is thrown away (pydevd_vars.py 101). | `LineReq.c84_locator_tag_witness` |
| In the console, behind a call or an index (`f().pr`) names of the frame are offered as if they were attributes. | `Complete.c85_call_witness` |
| For a column beyond the end of the line the range sent with a completion is not in the line. | `Complete.c85_beyond_witness` |
| The length sent with a completion is that of the typed text in lower case, which can be longer (`İ`). | `Complete.c85_lower_witness` |
| `__class__` is offered twice for every object. | `Complete.c85_twice_witness` |
| A forked process asked for a thread id before its first poll gives the id of its parent: the client sees one id from two processes. | `ThreadIds.c86_inherited_witness` |
| A client that asks to stop at `sys.exit(0)` does not get it if an earlier client of the process did not ask: the ignored codes are only set, never cleared (pydevd_process_net_command_json.py 436-441) | `Options.c87_exit_zero_witness` |
| Naming any way to show variables turns protected ones from inline (the default) to grouped (379-384) | `Options.c87_presentation_witness` |
| The path mappings of one client stay in force for the next that gives none (418-419) | `Options.c87_mappings_witness` |
| On Mac the real case of `/` is `//` | `RealCase.c88_root_witness` |
| On a case-sensitive Mac volume the path of another file, differing only in case, is given back | `RealCase.c88_clash_witness` |
| After a rename that changes only case, the old path is given (the code says so in a comment) | `RealCase.c88_stale_witness` |
| If listing fails for lack of permission on the second try, the error reaches the caller: only the first try guards against it | `RealCase.c88_raised_witness` |
| With property tracing switched off by the client, a subclass that extends `Base.x` by `@Base.x.setter` changes the base class: the debugger's property changes itself instead of making another | `TraceProp.c89_base_witness` |
| An accessor that is to be left out is traced (in what it calls) after it uses another property | `TraceProp.c89_nested_witness` |
| Using a property turns tracing on where it was off | `TraceProp.c89_on_witness` |
| The command for properties accepts three parts but uses four, and fails half done | `TraceProp.c89_command_witness` |
| `os.execl`, `os.spawnl` and others call other patched functions of `os`, so one start is patched two or three times: code given with `-c` then attaches two or three times, and the client is told of several new processes. | `PatchArgs.c40_again_code_witness` |
| A `handle` given to `_thread.start_joinable_thread` by position is passed to the program's function instead (the code's comment admits it). | `ThreadPatch.c90_position_witness` |
| With threads patched, `start_new_thread` accepts what Python refuses (arguments that are no tuple, something not callable); the error, if any, comes up in the new thread. | `ThreadPatch.c90_errors_witness` |
| `stoptrace` leaves names in `_thread` and `threading` which were not there. | `ThreadPatch.c90_names_witness` |
| A library that replaces the functions to start threads after the debugger started (gevent) is ignored after the next `settrace` and undone by `stoptrace`; before it, its threads are not announced. | `ThreadPatch.c90_forgotten_witness` |
| a request for variables or a stack trace is answered by success (with an empty list) even when reading them raised an exception | `Requests.c91_variables_witness` |
| No stack size can be computed when two labels that are jumped to follow each other; putting a breakpoint on the line of `a or b` at the end of an `if` makes this happen, and the code is refused (the function is traced instead) | `StackSize.c92_labels_witness` |
| For code with a loop that leaves values on the stack a stack size is computed, and is too small, instead of an error | `StackSize.c92_unbalanced_witness` |
| With `sys.monitoring`, the condition for showing return values during a step return is written as a tuple `(info, _is_same_frame(...))`, which is always true: values of functions the step has nothing to do with are recorded (`_pydevd_sys_monitoring.py` 1193). | `ReturnValues.c93_mon_return_witness` |
| A debugger file (or a library file out of scope) is passed over silently the first time a step into reaches it; the second time, found in the cache of skipped functions, the client is told that the step was skipped because of the filters | `Dispatch.c23_skip_notice_pydev_witness` |
| `add_dont_terminate_child_pid(pid)` has no effect on Linux and macOS: the set holds numbers, the routine asks for the text printed by `pgrep` (pydevd_api.py 1087-1088), so the process is killed all the same | `Terminate.c95_ignored_witness`, `Terminate.c95_killed_witness` |
| With `maxExceptionStackFrames` the details of an exception leave out the place where it was raised: its own frames are listed innermost first and `frames[-max_frames:]` keeps the outermost ones (pydevd_comm.py 1525); a negative limit drops frames at the other end | `ExcInfo.c96_limit_witness`, `ExcInfo.c96_negative_witness` |
| For a statement of several lines the details of an exception show the text of the lines after its first one (`linecache.getlines(...)[lineno : end_lineno + 1]`, 0-based), with doubled line ends (pydevd_comm.py 1529) | `ExcInfo.c96_multiline_witness` |
| The trace of an exception ends at a cause that was never raised itself (`raise A from B()`), and what that one came from is lost too (pydevd_comm.py 1470) | `ExcInfo.c96_chain_cut_witness` |
| The trace is empty, also of all causes, when `str()` of the exception raises (pydevd_comm.py 1561) | `ExcInfo.c96_unprintable_witness` |
| Asking for the source of a frame whose code builds an empty tuple right after a load (`f(**kw)` as Python 3.8 compiles it) never ends: the lookahead puts the same instruction back and starts again | `Disasm.c97_empty_tuple_witness` |
| A made-up source of code with an instruction on line 0 has every line one row too low | `Disasm.c97_line_zero_witness` |
| When connecting fails, `settrace` raises but leaves the debugger it created registered: later calls return normally, never connect, and stop the thread for a client which does not exist. | `Startup.c98_failed_connect_witness`, `Startup.c98_failed_forever_witness` |
| `_enable_attach` on a port in use does not raise: it waits for ever, the error is raised in the thread which binds the socket. | `Startup.c98_port_in_use_witness` |
| `_enable_attach` after a `settrace` which connected to a client waits for ever. | `Startup.c98_client_first_witness` |
| When a client replaces one which is still there, a `configurationDone` of the old client may count for the new one. | `Startup.c98_replaced_client_witness` |
| Expanding the result of an evaluate request for `a + b` gives children the expression `a + b[0]`: the parent's expression is not put in brackets (pydevd_suspended_frames.py 186-192, 354-366). | `EvalName.c99_sum_witness` |
| In generators (and comprehensions before 3.12) the iterator is shown with the expression `.0`, a number (pydevd_suspended_frames.py 303). | `EvalName.c99_iterator_witness` |
| A group of a frame is sent with the expression `special variables` (pydevd_suspended_frames.py 284). | `EvalName.c99_group_witness` |
| A global hidden by a local is given an expression which evaluates to the local; setting a child of it therefore changes the local (pydevd_suspended_frames.py 303, 232). | `EvalName.c99_hidden_witness` |
| `.__dict__[%s]` is filled in with the name without quotes (pydevd_resolver.py 80). | `EvalName.c99_dict_attribute_witness` |
| Keys that are instances of subclasses of `int` and so on, infinities and `nan` are given their `repr` as expression, which does not evaluate to them (pydevd_resolver.py 220-238). | `EvalName.c99_enum_witness` |
| A provider of texts that raises for one value is not asked again for any value of that type (pydevd_xml.py 241-250). | `TypeCache.c100_failing_provider_witness` |
| When the provider was kept before, an exception in it is not caught by `str_from_providers`, and the value is shown by `repr` instead of the usual text (pydevd_xml.py 235-236). | `TypeCache.c100_failing_later_witness` |
| The resolver is kept under `o.__class__` but chosen by `isinstance(o, ..)`: a value with a made-up `__class__` decides how values of that class are expanded (pydevd_xml.py 195-200). | `TypeCache.c100_disguise_witness` |
| `CheckAliveThread` calls `can_exit` twice; when something is queued between the two calls (a response to a late request), the thread ends without disposing: the message and the exit message are not sent | `Dispose.c101_second_look_witness` |
| A helper thread that was started but has not registered itself when the disposal takes the set of helper threads is never asked to end | `Dispose.c101_late_helper_witness` |
| The disposal reads the global debugger and then resets it: a debugger that became the global one in between is forgotten | `Dispose.c101_forgotten_witness` |
| The writer may stop without sending the exit message (it found the queue empty just before the message was queued and the flag set) | `Dispose.c101_no_exit_witness` |
| When one of several stopped threads is resumed, the client is told that the paused greenlets of the other stopped threads are gone too (`from_this_thread.append` is outside the test of the thread) | `Greenlets.c102_vanish_witness` |
| `greenlet_events` calls `update_custom_frame` with the name and the thread swapped, so after a missed switch a paused greenlet is never shown again (and its frame is not refreshed) | `Greenlets.c102_swapped_witness` |
| In a thread without entry point (native thread, attach) an exception that is caught in the outermost frame and raised again after the handler's first call is not reported as uncaught: the call replaces the tracer which saw it | `TopLevel.c103_first_call_witness` |
| The same happens if the thread is stopped in a function called by the handler | `TopLevel.c103_stop_witness` |
| If native code calls several functions in one thread, uncaught exceptions are reported only from the first | `TopLevel.c103_second_call_witness` |
| `get_line_of_offset` takes the end of a range as inside: on Python 3.12 the jump at the end of a `while` loop is taken for one within the line of the `while`, which is then considered twice in each round | `Jump.c104_while_witness` |
| `line_to_skip is line` compares numbers by identity: beyond line 256 a round of a one-line loop may be considered twice | `Jump.c104_beyond_256_witness` |
| A recursive call from a one-line loop is not considered if its first line is the line of the loop | `Jump.c104_recursion_witness` |
| Step into target before 3.11: `f(a is b)` offers nothing, and `h(f(a is b))` offers the call of `f` as one of `h` (`IS_OP` pushes no result) | `StepCalls.c105_is_witness` |
| Step into target before 3.11: `f(a in b)` is offered under the name of an operand (`CONTAINS_OP` is not handled) | `StepCalls.c105_in_witness` |
| Step into target before 3.11: true division is offered as `__div__` | `StepCalls.c105_div_witness` |
| Step into target before 3.11: a call with 256 or more arguments is offered under the name of an argument | `StepCalls.c105_many_witness` |
| `os.execlp` etc. patch code given with `-c` up to three times: the child attaches three times | `Process.c106_code_witness` |
| The client is told that the process is replaced although `os.execvp` fails and the program goes on (once per directory of the search path) | `Process.c106_replaced_witness` |
| `os.spawnl` tells the client of three processes and starts one | `Process.c106_created_witness` |
| Once the functions that only warn are in place (no `--multiprocess`), a later `settrace(patch_multiprocessing=True)` has no effect on children | `Process.c106_order_witness` |
| Without attaching to children, exceptions of `fork_exec` are swallowed: `Popen` seems to succeed, with the pid `None` | `Process.c106_warn_witness` |
| Leaving an inner `skip_subprocess_arg_patch` ends the outer one | `Process.c106_nested_witness` |
| After `stoptrace`, children made by a fork are still attached to the client | `Process.Fork.c107_stopped_witness` |
| References to fork-safe locks are never dropped but by a fork: each lock made leaves two | `Process.Fork.c107_leak_witness` |
| A continue (or another thread's step which resumes all threads) which comes between a jump's being taken from the queue and its being made makes the jump be forgotten: the client never gets an answer to its goto. | `Goto.c108_lost_witness` |
| A continue which comes while a jump is being refused is overwritten: the thread goes on waiting although the continue was answered. | `Goto.c108_continue_lost_witness` |
| If the session ends while a thread is stopped after a successful jump, the thread tries the jump again, its answer has no request number, and the `ValueError` of `int('')` is raised in the program being debugged. | `Goto.c108_raised_witness` |
| The path of a goto target is not compared with the file the thread is stopped in: a target in another file jumps to the line of that number in this one. | `Goto.c108_file_witness` |
| A goto for a thread which is not found is never answered. | `Goto.c108_thread_witness` |
| A line which is no number in the line protocol's set next statement is never answered. | `Goto.c108_number_witness` |
| With monitoring, a pause which the thread notices at a return (for instance when paused in the last call of a function) is told as a `step`: the return event does not look at the thread's state. | `StopReason.c109_pause_witness` |
| A breakpoint is told as a `pause` if another thread's stop suspends all threads between the hit and the telling; two threads hitting breakpoints at once may both be told as paused. | `StopReason.c109_race_witness` |
| The stop at the entry is told as a `step` if the thread is resumed before it is told. | `StopReason.c109_entry_witness` |
| A slow evaluation which ends while its timeout's callback is in progress does not wait for it: the other threads are let go after the end (and after being held again), the client is told that all continue, and the thread which evaluated stays stopped. | `EvalTimeout.c110_late_callback_witness`, `EvalTimeout.c110_overtaken_callback_witness` |
| A thread which was let go and held again before it left its wait loop tells the client of a continuation after the stop; when it stops again nothing is told, so the client takes stopped threads to be running. (The same may happen after a continue followed by a quick breakpoint.) | `EvalTimeout.c110_late_leave_witness` |
| Interactive console: when compiling raises anything but syntax, value or overflow errors (`MemoryError`, `RecursionError`), the client is told that the text is complete, but it is not run; it stays in the buffer and is put before everything typed after. | `Interp.c111_raises_witness` |
| Interactive console: a `KeyboardInterrupt` which arrives after the code ended drops lines typed meanwhile (so the rest of a block is run alone), may put `None` in the queue, or ends the console's loop. | `Interp.c111_late_interrupt_witness`, `Interp.c111_lost_witness`, `Interp.c111_ended_witness` |
| Two threads which begin to read the standard input at once may both miss the message that input is requested; the client is then told only of its end. | `StdIn.c112_race_witness` |
| Interactive console: an interrupt marks the console as not interruptable although the code still runs; code which catches the first `KeyboardInterrupt` cannot be interrupted again. | `Interp.c111_second_interrupt_witness` |
| setVariable on an element of a list whose variable was rebound meanwhile changes the other list, and answers successfully with the old value | `SetVar.c113_moved_witness` |
| With numbers in base 16, setVariable on a list element is refused under the name shown; under its decimal name it is set and reported as failed | `SetVar.c113_hex_witness`, `SetVar.c113_hex_name_witness` |
| Setting an element to a function or class sets it and reports a failure (the new value is looked for outside of the group it is in now) | `SetVar.c113_function_witness` |
| setVariable on an element of a frozenset raises out of the request: it is never answered | `SetVar.c113_frozenset_witness` |
| The value for an element of a set is evaluated in the debugger's own module, not in the frame | `SetVar.c113_set_names_witness` |
| a thread whose first monitored event (as after attaching) is in `other.is_alive()` is taken to be `other` for good, and is no longer debugged once `other` ends | `MonThread.c114_is_alive_witness` |
| a thread whose outermost frame is another function of a file named `threading`, `pydevd` or `pydev_monkey` is never debugged (the `f_back is None` test is only reached for other files) | `MonThread.c114_outermost_witness` |
| the flag that `threading` was patched is set before the patch: a helper thread made meanwhile by another thread is visible to the program | `HideThreads.c115_overlap_witness` |
| The first step over after a breakpoint in a Jinja2 template passes the next line of the template: `pydev_call_inside_jinja2` is only set at that line | `TemplateStep.c116_first_step_witness` |
| `pydev_call_inside_jinja2` is never cleared: after a step over in one template and a continue, step overs in later renders of the thread never stop | `TemplateStep.c116_stale_witness`, `TemplateStep.c116_stale_example` |
| A Jinja2 loop variable `user_name` is shown as `user` (only the part up to the next underscore is taken) | `TemplateVars.c117_underscore_witness` |
| A Jinja2 loop variable that is 0, empty or false is not shown | `TemplateVars.c117_false_witness` |
| A Jinja2 loop variable that hides one of the context is shown with the context's value | `TemplateVars.c117_shadow_witness` |
| A variable of a template frame can not be changed: `change_variable` of both plugins passes `scope=` to functions that have no such parameter (TypeError) | `TemplateVars.c117_change_witness` |
| With pytest, output of a test is lost: each section of output replaces what there was by the errors and itself (`append_strings(error_contents, value)`) | `Pytest.c118_output_witness` |
| With pytest, tests named for a file are not run if other tests are named for a link to that file | `Pytest.c118_link_witness` |
| With pytest, tests named together with a directory: no test is run (the filter has only the directory's own path) | `Pytest.c118_dir_witness` |
| An exception breakpoint added again with fewer kinds (for example only unhandled after only handled) still breaks for the old kinds | `ExcTables.c119_again_witness` |
| `CMD_SET_PY_EXCEPTION` (not JSON) never calls `on_breakpoints_changed`: under `sys.monitoring`, in a program that runs, its breakpoints have no effect until something else changes | `ExcTables.c119_text_witness` |
| `has_plugin_exception_breaks` stays on after all exception breakpoints were removed (exceptions go on being looked at for nothing) | `ExcTables.c119_flag_witness` |
| A path with a directory whose name only begins like an archive's (`.eggs`, `my.zipped`) or a file like `a.zip.py` gets another name: `/p/.eggs/m.py` is known, and shown to the client, as `/p/.egg/s/m.py`; two files may get one name | `Canonical.c120_eggs_witness` |
| An archive is read once for `exists`: files added to it later do not exist for the debugger | `Canonical.c120_zip_witness` |
| After `os.chdir` a relative file name keeps the path of its first use, so that another file of that name is taken for the first | `Canonical.c120_chdir_witness` |
| `set_resolve_symlinks` has no effect on names already looked up | `Canonical.c120_resolve_witness` |
| In `_iternodes` the inner loop's variable is that of the outer one: after the first list of a node that has nodes, the node's other lists are looked for in the last node given. The lines of the `empty` part of a `for` are so taken for invalid, and breakpoints on them moved or refused | `TemplateLines.c121_empty_witness` |
| The completion server takes two requests that arrive together as one (`rfind` of the end marker) | `ComplServer.c122_together_witness` |
| The completion server ends when a character of several bytes is split between two reads | `ComplServer.c122_split_character_witness` |
| `complete_from_dir` removes the user's first path when it equals the directory asked for before the paths were changed | `ComplServer.c122_path_lost_witness` |
| The file in a completion message is not quoted: different answers have the same text | `ComplServer.c122_file_not_quoted_witness` |
| The answer `@@INVALID_REQUEST` has no end marker | `ComplServer.c122_invalid_request_witness` |
| The short options of the test runner (`-v`, `-t` in its usage, others in its code) are refused, since none is declared | `RunArgs.c123_short_options_witness` |
| If the configuration file with the tests to run is missing, a line is printed and all tests are run | `RunArgs.c123_missing_file_witness` |
| The test runner matches entries of sys.path as text: with `/src/test` before `/src`, the module of `/src/test_os.py` is `os`, whose (absent) tests are run in place of those of the file | `RunFiles.c124_prefix_witness` |
| A file of tests with two dots in its name is skipped with no message | `RunFiles.c124_two_dots_witness` |
| With files of several directories, only the directory of the last is added to sys.path, and the others may not be importable | `RunFiles.c124_first_dir_witness` |
| Logging to another file and back truncates the first: what was logged to it is lost | `Logging.c125_back_witness` |
| A process forked within `log_context` logs to the file of its parent after the context ends | `Logging.c125_fork_witness` |
| `list_log_files` lists nothing for a name without a directory, and lists files of other logs | `Logging.c125_list_witness` |
| When no module has the modified file, the message says that the *last module of `sys.modules`* could not be found for it: the loop over the modules overwrites the requested name. | `AutoReload.c126_message_witness` |
| A reload command with a file and no module name (a tab first) is stripped, so the file is looked up as a module name and nothing is reloaded. | `AutoReload.c126_command_witness` |
| A pause or step request for a thread that does not exist is answered as successful. | `ThreadReqs.c127_unknown_witness` |
| A pause for all threads marks the first application thread as suspended even if it opted out of tracing, so it is marked and never stops. | `ThreadReqs.c127_untraced_witness` |
| When a file run in the console raises (or its directory does not exist), `__file__` and `sys.argv` of that file stay in the console. | `RunFile.c128_raise_witness` |
| The module deleter compares paths as text: with Python in `/opt/py`, the modules in `/opt/pyproject` are never reloaded. | `RunFile.c128_prefix_witness` |
| A request for one row of a matrix shows the first cell of each of the next rows; a request for one cell shows a whole row | `Tables.c129_row_witness`, `Tables.c129_cell_witness` |
| A request for more columns of an array of one element fails | `Tables.c129_single_witness` |
| A request for the last columns of a data frame fails if it asks for more columns than are left | `Tables.c129_frame_witness` |
| Labels of columns of a data frame are put into the XML without quoting | `Tables.c129_label_witness` |
| Attaching to a process with an argument that is not an option runs forever | `AttachPid.c130_unknown_witness` |
| A host, protocol or path with a double quote makes the process that is attached to run other code | `AttachPid.c130_injection_witness` |
| an import statement executed when nothing is registered (or after all registered modules were imported) removes the import hook for good: modules registered later, e.g. for a second console, never have their function called | `ImportHook.c131_late_witness` |
| an attribute of a dictionary subclass that is named like one of its string keys, or an attribute `more` of a list subclass, is shown, but opening it (line protocol) shows the item, or the rest of the list | `VarPath.c132_attribute_witness`, `VarPath.c132_more_witness` |
| a table view of a nested value evaluates only the last name of its path in the frame: another variable, or an error (`InternalGetArray`) | `VarPath.c132_array_witness` |
| a request for the scope GLOBAL without a placeholder fails (`del locator_parts[0]`) | `VarPath.c132_globals_witness` |
| two threads that ask for extensions for the first time: the second sees the list of modules that was just begun and caches that there are no extensions, for good | `Extensions.c133_lost_witness` |
| two threads that ask for the same type for the first time: every extension is cached twice, for good | `Extensions.c133_twice_witness` |
| an extension module that fails with another error than `ImportError` makes the request fail, and no module after it is ever loaded | `Extensions.c133_other_witness` |
| In a paused program full values come with the first character of the name of the variable: the code takes `attrs[0]` of a text, so `apple` and `alpha` cannot be told apart | `LoadFull.c134_name_witness` |
| In a console the full value of a row below an expression is that of the expression: its path is dropped | `LoadFull.c134_expression_witness` |
| `_offset_to_line_number` raises `IndexError` for a text that ends with CR (the bound is tested one too late) | `OldLine.c135_witness` |
| A directory twice on `sys.path` makes a module "shadowed" by itself when its import fails for another reason | `Shadow.c136_twice_witness` |
| The block that imports `xmlrpc.client` looks for files of `xmlrpclib`, so a file that hides `xmlrpc` is not named | `Shadow.c136_xmlrpc_witness` |
| Django and Jinja2 breakpoints in one file share one table of numbers, and all of them are written to the table of the kind last changed: a removed breakpoint goes on stopping the other kind of template | `PluginBreaks.c137_mixed_witness` |
| Columns of the parser are bytes but are used as characters: with other than ASCII characters in the line of the import the code of a `-c` subprocess is cut inside the next statement | `FutureEnd.c138_bytes_witness` |
| A form feed before the future import shifts the place at which `-c` code is divided | `FutureEnd.c138_formfeed_witness` |
| A line of blanks after the future import gives a line that begins with `  ;`, a syntax error in the subprocess | `FutureEnd.c138_blank_witness` |
| With the `matplotlib` event loop, a pause after `matplotlib` and before `matplotlib.pyplot` is imported leaves `pyplot` without activation for good: `gui_in_use` is set and nothing is looked at again | `GuiLoop.c139_pyplot_witness` |
| `import_attr_from_module` gives up if the longest importable module lacks the attribute, although a shorter one may have it | `GuiLoop.c139_longest_witness` |
| `start_client` never closes a socket that it could not connect | `Connect.c140_open_witness` |
| `create_server_socket` closes `server` in its handler also if making it failed: the user sees `UnboundLocalError` instead of the reason | `Connect.c140_unbound_witness` |
| `PYDEVD_CONNECT_TIMEOUT=0` does not mean to wait without limit: the socket does not block and connecting fails | `Connect.c140_zero_witness` |
| `internal_get_next_statement_targets` guards only the call of `dis.findlinestarts`, a generator: if the lines cannot be told the user gets an error, not the current line | `NextTargets.c141_generator_witness` |

## Read, not proved

* `do_wait_suspend`: `from_this_thread.append` is outside its `if`.
* `cmd_set_property_trace` raises `IndexError` for short arguments; `cmd_set_break` with 8 fields.
* `_translate_id_to_dap(None)` allocates a new id.
* The cache of `str_from_providers` is overwritten.
* `exception.split("-")` in the exception commands breaks names with a dash.
* `on_continue` delays the response if nothing is suspended.
* `_internal_get_file_type`: `if i:` is true for -1.
* `_get_setup_updated_with_protocol_and_ppid` does not remove `protocol-http`.
* `_separate_future_imports` uses a byte column as a character offset.
* `clear_dont_trace_start_end_patterns_caches` re-traces running frames before it clears the cache of file types.
* Enabling the comment filter (`CMD_ENABLE_DONT_TRACE`), and some breakpoint commands before the program runs, do not change `mtime`.
* Function breakpoints never stop in generators with the tracing backend.
* `initialize_if_possible` of the frame evaluator reads `additional_info` from the module `thread` instead of the thread `t`.
