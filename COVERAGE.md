# What is modelled

Generated by `tools/mkcoverage.py` from the comment at the top of each model file.

## Verif/AnyThread/Model.lean

Model of commands posted for "any thread".

Source: `/repo/_pydevd_bundle/pydevd_comm.py`, `InternalThreadCommandForAnyThread.do_it` (590-596):

    with self.lock:
        if self.executed:
            return
        self.executed = True
    InternalThreadCommand.do_it(self, dbg)

Any number of threads may call `do_it` of the same command; each access is one atomic action.

## Verif/Assemble/Model.lean

Model of the assembler the debugger uses for the code it has put breakpoints
into: from a list of labels and instructions to bytes and a table of lines.

Models /repo/_pydevd_frame_eval/vendored/bytecode/concrete.py.

## Verif/AttachPid/Model.lean

Model of attaching to a running process by its number on Linux: from the command line to the command that is run.

Source: `/repo/pydevd_attach_to_process/attach_pydevd.py` `process_command_line` (5-42), `main` (45-84),
`/repo/pydevd_attach_to_process/add_code_to_python_process.py` `run_python_code_linux` (398-483).

Simplifications: the library to load is found; what is printed, and the environment of the command (which loses
`PYTHONPATH` and `PYTHONIOENCODING`), are left out. Windows and Mac are not modelled.

## Verif/Auth/Model.lean

Model of authentication and of the gate in front of every request.

Source: `/repo/pydevd.py` class `_Authentication` (518-553), `on_disconnect` (911-917);
`/repo/_pydevd_bundle/pydevd_process_net_command_json.py` `process_net_command_json` (150-221);
`/repo/_pydevd_bundle/pydevd_process_net_command.py` `process_net_command` (31-81), `cmd_authenticate`
(83-89).

Simplifications: a token is a `List Char`; what a request does is the abstract event "executed"; the
requests that end the session (`disconnect`, which calls `logout` through `notify_disconnect`) are a
separate constructor. The access token does not change during the session.

## Verif/AutoReload/Model.lean

Model of reloading code: what is watched, the request to reload, and what is reloaded by it.

Source: `/repo/pydevd.py` `setup_auto_reload_watcher` (809-877); `/repo/_pydevd_bundle/pydevd_comm.py`
`FSNotifyThread._on_run` (331-356), `internal_reload_code` (605-655);
`/repo/_pydevd_bundle/pydevd_process_net_command.py` `cmd_reload_code` (191-198).

Simplifications: whether a path matches a pattern (`glob_matches_path`) and `normcase` are inputs; the paths are those of
Linux; `xreload` does not fail, and whether it changed something is an input; the scan of the watcher is the area FsNotify.

## Verif/Breakpoints/Model.lean

Model of the store of line breakpoints.

Source: `/repo/_pydevd_bundle/pydevd_api.py` `_get_code_lines` (73-95), `add_breakpoint` (416-633),
`reapply_breakpoints` (635-645), `remove_all_breakpoints` (647-691), `remove_breakpoint` (693-757);
`/repo/pydevd.py` `consolidate_breakpoints` (1862-1868);
`/repo/_pydevd_bundle/pydevd_process_net_command_json.py` `on_setfunctionbreakpoints_request` (757-789),
`on_setbreakpoints_request` (791-853), `_next_breakpoint_id` (146).

Simplifications: only breakpoints of type `python-line` (template breakpoints live in a second pair of dicts
handled the same way); condition, function name, expression, suspend policy and hit condition are one
opaque `payload`; path translation, normalisation, source mapping, file existence and the files filter
are parameters (`Env`), fixed during a call; cache clearing and plugin notification are left out here.

## Verif/Bytecode/Model.lean

Model of the programmatic breakpoints of frame evaluation: the instructions
the debugger puts in the byte code of a function which has breakpoints, and
what the interpreter does when it runs such code.

Models /repo/_pydevd_frame_eval/pydevd_modify_bytecode.py and the part of
/repo/_pydevd_frame_eval/vendored/bytecode that gives instructions without a
line the line of the one before.

## Verif/Canonical/Model.lean

The names under which the debugger knows files: `/repo/pydevd_file_utils.py` `_abs_and_canonical_path` (438-470), `_get_relative_filename_abs_path`
(473-484), `_apply_func_and_normalize_case` (487-526), `exists` (533-583), `set_resolve_symlinks` (713-715),
`get_abs_path_real_path_and_base_from_file` (905-938) and `get_abs_path_real_path_and_base_from_frame` (941-964).

Simplified: paths are those of posix (`os.path.join`, `isabs`, `basename` as in `posixpath`); `normcase` is any function of the path (on Linux the
identity), so its own cache is left out; `os.path.abspath`, `realpath` and `exists` are any functions, which may change at any time (`World`); the branches for
the shutdown of the interpreter are left out.

## Verif/CmdLine/Model.lean

Model of the debugger's command line.

Source: `/repo/_pydevd_bundle/pydevd_command_line_handling.py` (all).

Simplifications: a setup is a function from names to optional values (`none`: the key is not there); the index `i` of
the loop is 0 until `--file` is found (the arguments handled are deleted), so the list is consumed from the front; text
that is not a plain decimal number is refused by `int` as in `Common/PyInt.lean`.

## Verif/CmdQueue/Model.lean

Model of the queues of commands that must run on particular threads.

Source: `/repo/pydevd.py` `get_internal_queue_and_event` (1580-1585), `post_method_as_internal_command` /
`post_internal_command` (1587-1601), `process_internal_commands` (1761-1860, the part that drains the
queues, 1808-1860); `/repo/_pydevd_bundle/pydevd_comm.py` `can_be_executed_by` (558-560, 587-588).

Other threads may post between any two queue operations of a drain; two drains never overlap because
the drain holds `_main_lock` (1772). The notification of thread starts/ends done by the same function is
modelled elsewhere. Running the commands (1850-1860) happens after the lock is released; the model logs
the list handed to the current thread at that point.

## Verif/Columns/Model.lean

Columns of a frame: `_pydevd_bundle/pydevd_frame_utils.py` (108-206) and the part of `make_get_thread_stack_message` that reports
them (`_pydevd_bundle/pydevd_net_command_factory_json.py` 296-309).

The result of Python's parser for a part of a line (`_extract_caret_anchors_in_bytes_from_line_segment`, 175-206) is a parameter.

## Verif/ComplServer/Model.lean

Model of the server for code completion: what it reads, what it answers and what it does to `sys.path`.

Source: `/repo/pycompletionserver.py` `complete_from_dir` (89-100), `change_python_path` (103-114),
`Processor.remove_invalid_chars` (122-134), `Processor.format_completion_message` (136-161) and
`CompletionServer.run` (218-368).

Simplifications: the functions that find completions and definitions (`generate_tip`, `search_definition`, `jedi`) are
inputs, which may depend on `sys.path` and may raise; sending does not fail; text has no surrogates; `strip` removes
ASCII white space; in `unquote_plus` malformed UTF-8 is not replaced; the log is part of the text of an error.

## Verif/Complete/Model.lean

Completions in the debug console: which names are offered for a text and a cursor, and which part of the
text each of them replaces.

_pydev_bundle/_pydev_completer.py, `internal_get_completions` (_pydevd_bundle/pydevd_comm.py 1395-1434) and
`make_get_completions_message` (_pydevd_bundle/pydevd_net_command_factory_json.py 189-213).

Simplifications: the text is given as its lines (`str.splitlines()`); `str.isidentifier` of one character and
`str.lower` are arbitrary functions; what a dotted name evaluates to is given as the list of its attributes
(`dir`), `none` when the evaluation fails in every namespace. Types, documentation and parameters of the
completions are not modelled.

## Verif/Connect/Model.lean

Model of how the debugger gets its socket.

Source: `/repo/_pydevd_bundle/pydevd_comm.py` `create_server_socket` (451-465), `start_client` (490-537);
`/repo/_pydev_bundle/pydev_localhost.py` `get_localhost` (9-34).

Simplifications: addresses of other families than IPv4 and IPv6 are `other`; which exception is raised is not modelled, except where said. What the system
does is given by the structures below. Ports and hosts are passed on unchanged and left out.

## Verif/Console/Model.lean

# The console of a stopped frame

Models `_pydevd_bundle/pydevd_console.py` with the parts of `_pydevd_bundle/pydevconsole_code.py` and
`_pydev_bundle/pydev_console_utils.py` it is made of: lines are collected until they make a command,
the command is run in the frame with its output caught, and the reply says what was written.

Simplified: compiling, and what running code does to everything else, are parameters; what is written
back to the frame (by `update_globals_and_locals`, also if the code raises) is in the model of
`Evaluate` and here part of what running does. Of output only its texts matter. `pydoc.help` is left
out. Streams and hooks are numbers.

## Verif/Disasm/Model.lean

# The source made up for a frame that has none

Models `_pydevd_bundle/pydevd_collect_bytecode_info.py` 484-875 (`_MsgPart`, `_Disassembler`,
`code_to_bytecode_representation`) and the part of `_pydevd_bundle/pydevd_api.py` 800-819
(`get_decompiled_source_from_frame_id`) that chooses between the cached lines and the made-up ones.

Simplifications:
* the only caller (`pydevd_api.py` 817) leaves `use_func_first_line` at `False`, so the first line
  given to every disassembler is 0 and line indexes are line numbers, natural numbers;
* a code object is what `dis` says about it: its first line, its table of line starts (without the
  entries that have no line) and its instructions; `opcode` and `starts_line` are not looked at by
  the code;
* an argument value is a number, a code object, or something of which only its truth and its text
  matter;
* the Python loop that goes on while there are instructions is given a number of rounds, and the
  answer is `none` when they run out; a Python exception is `Except.error`.

## Verif/Dispatch/Model.lean

Model of the decision taken at every trace event: skip caches, breakpoints, stepping.

Source: `/repo/_pydevd_bundle/pydevd_frame.py` `PyDBFrame.trace_dispatch` (346-1055), `_is_same_frame` (288-309),
`_get_unfiltered_back_frame` (268-283), `trace_exception` (176-207);
`/repo/_pydevd_bundle/pydevd_trace_dispatch_regular.py` `ThreadTracer.__call__` (353-529);
`/repo/pydevd.py` `handle_breakpoint_condition` (945-982), `consolidate_breakpoints` (1862-1868), `_clear_caches`
(1308-1324), `on_breakpoints_changed` (1171-1189), `_do_wait_suspend` (2257-2340),
`set_trace_for_frame_and_parents` (2377-2424); `/repo/_pydevd_bundle/pydevd_thread_lifecycle.py`
`mark_thread_suspended` (28-50); `/repo/_pydevd_bundle/pydevd_bytecode_utils.py`
`get_smart_step_into_variant_from_frame_offset` (920-938).

Simplifications: no plugin manager (no Django/Jinja2 breakpoints); values produced by user code are given: the
answer of the condition, whether an exception event stopped (`Exceptions` models that decision); file names are
numbers; filter answers are functions of the code object; `should_trace_hook` is evaluated every time instead of
being remembered per frame; waiting for the client is not modelled here, the outcome says where the thread
suspends and the information it suspends with; exceptions raised inside the trace function are not modelled.

## Verif/Dispose/Model.lean

Model of the end of a debug session: the disposal of the debugger by any number of threads, the thread that
notices the end of the program, the thread that writes to the client, and the end of the process.

Source: `/repo/pydevd.py` `PyDB.dispose_and_kill_all_pydevd_threads` (2481-2550),
`PyDB.__wait_for_threads_to_finish` (2446-2479), `CheckAliveThread` (301-345), `PyDB.has_user_threads_alive`
(1464-1473); `/repo/_pydevd_bundle/pydevd_daemon_thread.py` `PyDBDaemonThread.run`, `do_kill_pydev_thread` (39-71);
`/repo/_pydevd_bundle/pydevd_comm.py` `WriterThread` (363-448).

An execution is any list of actions; an action is one access to shared state (or one region under a lock) of one
thread. An action that is not possible in a state does nothing. Threads are numbers: 0 is the writer, 1 is the
thread that checks for the end of the program (`CheckAliveThread`), all others are either other helper threads of
the debugger or threads of the program.

Simplifications: one debugger (number 0) with one writer and one check-alive thread; nothing raises except `send`
(an exception while helper threads are asked to end would end the call there); a timeout may pass at any moment (a
flag records that one did); `time.sleep` and logging are left out; `check_output_redirect` is left out; `os._exit`
(the termination asked for by the client) and `CheckAliveThread.join` are left out.

## Verif/DontTrace/Model.lean

# Functions tagged not to be traced

Models `_pydevd_bundle/pydevd_dont_trace.py`: which functions are skipped because of a `@DontTrace`
comment, and the cache of that.

Simplified: `linecache`, which is cleared along with the cache, is left out: lines are read from the
file when they are not in the cache. What counts as white space in a regular expression is a
parameter.

## Verif/EvalName/Model.lean

The expression given to the client for every variable it is shown (`evaluateName` in the debug adapter
protocol): how it is put together while a frame, or the result of an evaluate request, is expanded.

Code modelled:
* `_pydevd_bundle/pydevd_suspended_frames.py`: `_AbstractVariable._group_entries` (112-150),
  `_ObjectVariable.get_children_variables` (165-200), `_FrameVariable.get_children_variables` (263-315),
  `_FramesTracker.obtain_as_variable` (354-366),
* `_pydevd_bundle/pydevd_resolver.py`: `DefaultResolver.get_contents_debug_adapter_protocol` (72-90),
  `get_names` (150-161), `_get_py_dictionary` (163-212), `_does_obj_repr_evaluate_to_obj` (223-238),
  `DictResolver.get_contents_debug_adapter_protocol` (278-327),
  `TupleResolver.get_contents_debug_adapter_protocol` (472-510),
  `SetResolver.get_contents_debug_adapter_protocol` (544-560).

Simplifications: names of rows are those without the `hex` format and without the suffix for keys of the
same representation (they play no part in the expressions); the rows are in the order of the containers
and of `dir()`, the sorting being left out; what is below a row "more" is left out here (it is in area
`Resolver`), such a row has no expression and so nothing below it has; text is ASCII or any other character a Lean
`Char` can hold (no lone surrogates).

## Verif/EvalTimeout/Model.lean

Model of a slow evaluation which lets the other threads go (and holds them again at its end).

Source: `/repo/_pydevd_bundle/pydevd_vars.py` `_run_with_unblock_threads` (312-346);
`pydevd_thread_lifecycle.py` `resume_threads` (62-82), `mark_thread_suspended` (31-57),
`suspend_all_threads` (90-120); `pydevd_timeout.py` `_OnTimeoutHandle` (107-155);
`pydevd.py` `PyDB.set_suspend` (1916-1984) for the other threads which hit something meanwhile. The single
notification is the one of `Notify.Model` (`pydevd.py` 348-515).

Three kinds of threads interleave: the thread which evaluates (`me`, stopped, in its wait loop), the
thread of the timeouts, which may run the callback, and the other threads of the program, which run when
they are let go. Every write of a state (`pydev_state`) and every call of the notification (which has its
own lock) is one action. The client may let threads go at any moment.

Simplifications: the list of threads is the same throughout; a thread marked as not to be traced
(`pydev_do_not_trace`) is not in it; the callback's test of `disposed` and the writes which follow it
(123-126) are one action (nothing else can be between them but `__exit__`, which would come too late
anyway); marking a thread is one write; an interrupt (`KeyboardInterrupt`) which arrives inside the
`finally` is not modelled, one which arrives in the evaluation is an end of it like any other.

## Verif/Evaluate/Model.lean

# Evaluating code in a frame and changing its variables

Models `evaluate_expression`, `eval_in_context` and `change_attr_expression` of
`_pydevd_bundle/pydevd_vars.py`, `update_globals_and_locals` and `save_locals` of
`_pydevd_bundle/pydevd_save_locals.py`, and the requests `evaluate`, `setExpression` and
`setVariable` of `_pydevd_bundle/pydevd_comm.py` which use them.

The code which is evaluated is arbitrary: any function from what it can reach to what it leaves.
Objects are numbers (their identity), namespaces are maps from names to objects.

## Verif/ExcInfo/Model.lean

Model of the details of an exception given to the client.

Source: `/repo/_pydevd_bundle/pydevd_comm.py` `build_exception_info_response` (1452-1606).

The frames of the exception and of the chained ones are the lists of `Stack.Model`
(`create_frames_list_from_traceback`). The trace is a list of entries instead of a text: how `traceback` formats
an entry (and that it shortens repeated ones) is not modelled, nor are the marks under columns. A frame without
`f_code` (IronPython) is not modelled.

## Verif/ExcTables/Model.lean

The commands that add and remove exception breakpoints, and the events asked of `sys.monitoring` for them.

Code modelled: `_pydevd_bundle/pydevd_api.py` `add_python_exception_breakpoint` (830-854), `add_plugins_exception_breakpoint` (856-866),
`remove_python_exception_breakpoint` (868-884), `remove_plugins_exception_breakpoint` (886-900), `remove_all_exception_breakpoints` (902-910);
`_pydevd_bundle/pydevd_process_net_command.py` `cmd_set_py_exception_json` (444-485) and `cmd_set_py_exception` (487-539), after their text was read;
`pydevd_plugins/jinja2_debug.py` (85-113) and `pydevd_plugins/django_debug.py` (127-157): `add_exception_breakpoint`, `remove_exception_breakpoint`,
`remove_all_exception_breakpoints`, `has_exception_breaks`; `_pydevd_bundle/pydevd_plugin_utils.py` `add_breakpoint` (49-62), `remove_exception_breakpoint`
(72-81), `remove_all_exception_breakpoints` (83-85), `has_exception_breaks` (126-130); `pydevd.py` `on_breakpoints_changed` (1172-1189);
`_pydevd_sys_monitoring.py` `update_monitor_events` (1887-1905, the events of exceptions).

The tables of Python exceptions are those of `Verif.Exceptions.Model`.

## Verif/Exceptions/Model.lean

Model of exception breakpoints: which one applies, when a raised exception stops the program, and what the
client's request sets up.

Source: `/repo/_pydevd_bundle/pydevd_breakpoints.py` `get_exception_breakpoint` (108-123),
`stop_on_unhandled_exception` (126-174); `/repo/_pydevd_bundle/pydevd_frame.py` `should_stop_on_exception`
(1064-1182); `/repo/pydevd.py` `add_break_on_exception` (1870-1914), `ignore_system_exit_code` (923-927),
`exclude_exception_by_filter` (1428-1444); `/repo/_pydevd_bundle/pydevd_frame_utils.py` `just_raised` (49-53),
`ignore_exception_trace` (82-96); `/repo/_pydevd_bundle/pydevd_api.py` `remove_python_exception_breakpoint`
(868-884), `remove_all_exception_breakpoints` (902-910);
`/repo/_pydevd_bundle/pydevd_process_net_command_json.py` `on_setexceptionbreakpoints_request` (896-999).

Simplifications: classes, names, frames and files are numbers; `issubclass` is a parameter; plugins (Django,
Jinja2) are represented only by what `plugin.exception_break` answers; conditions are given by the answer of
`handle_breakpoint_condition`; expressions and messages are recorded, not evaluated.

## Verif/Extensions/Model.lean

Model of the extensions (classes that show values, in modules the user adds).

Source: `/repo/_pydevd_bundle/pydevd_extension_utils.py` `ExtensionManager` (12-56).

Simplifications: an instance is known by its class. `getattr(extension, name)` does not fail for the names of `dir`.

## Verif/FilterCache/Model.lean

Model of the file-filter decision for a frame and of its four caches.

Source: `/repo/pydevd.py` `get_file_type` (1037-1107), `in_project_scope` (1252-1303), `_clear_caches` (1308-1324),
`clear_dont_trace_start_end_patterns_caches` (1326-1332), `_exclude_by_filter` (1334-1356), `apply_files_filter`
(1358-1426), setters (1446-1456); `/repo/_pydevd_bundle/pydevd_api.py` `set_dont_trace_start_end_patterns` (945-979).

Simplifications: no plugin is active (1381-1387); a query is one atomic step, except in `Action.rootsDuring`;
`_internal_get_file_type` (994-1019), which looks only at the file name, the absolute path of a file name and its
base name are parameters.

## Verif/Filtering/Model.lean

Model of the file filters: path globs, filter rules, project and library roots.

Source: `/repo/_pydevd_bundle/pydevd_filtering.py` `_check_matches` (28-57), `glob_matches_path` (60-84), `_fix_roots`
(199-208), `in_project_roots` (230-299), `exclude_by_filter` (315-328);
`/repo/_pydevd_bundle/pydevd_process_net_command_json.py` `_convert_rules_to_exclude_filters` (64-119).

Parameters (not modelled): `normcase`, `fnmatch.fnmatch` inside one path component, `os.path.isdir`, the absolute
path of a file name, `str.lower` of one character.

## Verif/FrameEval/Model.lean

Model of the decision the frame evaluator makes when a frame of a function begins or
goes on: run it as it is, trace it, or run a copy of its code with breakpoints in it.

Models /repo/_pydevd_frame_eval/pydevd_frame_evaluator.template.pyx, for one function
in a file that is debugged, together with what changes the breakpoints
(/repo/_pydevd_bundle/pydevd_api.py, /repo/pydevd.py).

## Verif/Frames/Model.lean

Model of the references handed out for a suspended thread.

Source: `/repo/_pydevd_bundle/pydevd_suspended_frames.py`: `_FramesTracker` (311-449),
`SuspendedFramesManager` (452-552).

A variable reference is `id(value)`. An object that a tracker has registered is kept alive by it, so its
`id` cannot be that of another object meanwhile; after the tracker is cleared the number may be reused.
The model therefore takes pairs (reference, object) from the environment; that they respect this rule of
CPython is part of the hypothesis `Valid` (in `Spec.lean`) on histories.

Each method is one action. In the code a tracker has its own lock and the manager none; the maps are
dicts whose single operations are atomic.

Simplifications: a variable is its value (its name and evaluate name are not modelled); fake frames
(`add_fake_frame`), used by the interactive console, are not modelled.

## Verif/FsNotify/Model.lean

Watching directories for changes: `_pydev_bundle/fsnotify/__init__.py`.

Not modelled: the sleeps, paths given as bytes, paths of Windows, changes of the tree while it is scanned, and calls of
`set_tracked_paths` while a scan is running.

## Verif/FutureEnd/Model.lean

Model of where the last `from __future__` import of a code ends.

Source: `/repo/_pydev_bundle/pydev_monkey.py` `_get_offset_from_line_col` (103-112), its use in `_separate_future_imports` (129-142); `str.splitlines`
of Python. What comes after it is `PatchArgs.separateFuture`.

Simplifications: the line (from one) and the column that the parser of Python gives are the arguments; Python 3.8 or later (they are there).

## Verif/Goto/Model.lean

# Setting the next statement

Models what a "goto" (JSON protocol), "set next statement" or "run to line" (line protocol) request
does: `on_goto_request` of `_pydevd_bundle/pydevd_process_net_command_json.py`, `_cmd_set_next` of
`_pydevd_bundle/pydevd_process_net_command.py`, `request_set_next` of
`_pydevd_bundle/pydevd_api.py`, `InternalSetNextStatementThread` of `_pydevd_bundle/pydevd_comm.py`,
and `set_next_statement`, `do_wait_suspend` and `_do_wait_suspend` of `pydevd.py`, together with the
other things which change the state of a stopped thread: steps, continue, pause, suspending all
threads, and the end of the session.

The model is of one thread of the program, whose steps (`Act.go`) interleave with what other threads
do to it. The frame is named by its function's name; whether the interpreter lets `f_lineno` be set
is a parameter. The commands of the line protocol `CMD_RUN_TO_LINE` and `CMD_SET_NEXT_STATEMENT` are
treated alike by the code, and are both `Step.jump`. Answers are those of the JSON protocol.

## Verif/Greenlets/Model.lean

Model of showing paused greenlets (with gevent) as threads while their thread is stopped.

Source: `/repo/_pydevd_bundle/pydevd_gevent_integration.py` `greenlet_events` (31-57, with
`GEVENT_SHOW_PAUSED_GREENLETS`), `/repo/_pydevd_bundle/pydevd_custom_frames.py` `add_custom_frame` (57-89),
`update_custom_frame` (92-106), `remove_custom_frame` (109-114); `/repo/pydevd.py` `PyDB.do_wait_suspend` (2156-2177),
`PyDB._do_wait_suspend` (2352-2356); `/repo/_pydevd_bundle/pydevd_net_command_factory_json.py`
`make_custom_frame_created_message`, `make_thread_killed_message` (149-165), `make_list_threads_message` (167-187).

Threads and greenlets are numbers. A number also stands for the text `__frame__:n|thread` which identifies a shown
greenlet (the texts of different numbers differ). The name of a shown greenlet is represented by the greenlet, and so
is its frame.

Simplifications: a call of `greenlet_events` is one step (it works on the entries of greenlets of its own thread, and
each access to the shared dictionary is under its lock); stopping a thread and its resuming are one step each; only
the messages about shown greenlets are kept.

## Verif/Grouping/Model.lean

Model of how the children of a variable are grouped and ordered.

Source: `/repo/_pydevd_bundle/pydevd_suspended_frames.py` `_AbstractVariable._group_entries` (109-150),
`_ObjectVariable.get_children_variables` (165-200), `_FrameVariable.get_children_variables` (265-315);
`/repo/_pydevd_bundle/pydevd_resolver.py` `get_var_scope` (796-830), `sorted_attributes_key` (45-58);
`/repo/_pydevd_bundle/pydevd_utils.py` `DAPGrouper` (327-347);
`/repo/_pydevd_bundle/pydevd_api.py` `VariablePresentation` (99-110).

Simplifications: values are numbers, and what `inspect.isroutine/isclass` say about a value is stored in
the entry (an exception in them counts as "neither", as in the code); evaluate names are opaque and carried
along; the value of the return-values dict is its list of items.

## Verif/GuiLoop/Model.lean

Model of how the event loop of a graphical interface is activated while the program is paused.

Source: `/repo/_pydevd_bundle/pydevd_utils.py` `import_attr_from_module` (494-517); `/repo/pydevd.py` `init_gui_support` (1625-1657),
`_activate_gui_if_needed` (1659-1690).

Simplifications: objects are numbers; importing and reading attributes are functions, errors of both are `none`. The functions that activate
matplotlib do not raise.

## Verif/HideThreads/Model.lean

The debugger's own threads are hidden from the program: `threading.enumerate`, `threading.active_count` and, at the end of the process,
`threading._pickSomeNonDaemonThread`.

Code modelled: `_pydevd_bundle/pydevd_daemon_thread.py` `_patch_threading_to_hide_pydevd_threads` (88-167) and
`mark_as_pydevd_daemon_thread` (173-193), with what `PyDBDaemonThread.__init__` (23-34) and `CheckAliveThread` (`pydevd.py` 300-306) do
with them.

Several threads may make helpers at a time; their steps interleave. `threading` registers a started thread in `_limbo`, then in `_active`
(CPython's `Thread.start` and `_bootstrap_inner`), and takes it away at its end.

Simplifications: the two dictionaries of `threading` are lists in their order. The check of the names in the code of `enumerate` is
`supported` for the code Python has, and fails for the code the patch puts there (which also loads `getattr`). Jython and IronPython
are left out.

## Verif/HitCond/Model.lean

Model of hit conditions.

Source: `/repo/_pydevd_bundle/pydevd_process_net_command_json.py` `_get_hit_condition_expression` (700-725);
`/repo/_pydevd_bundle/pydevd_breakpoints.py` `LineBreakpoint.handle_hit_condition` (64-76), the same as
`FunctionBreakpoint.handle_hit_condition` (93-105).

`eval` is modelled for the expressions this produces from the documented forms: integer literals, unary sign,
`%`, and comparisons (chained as in Python). Any other text is "outside the fragment"; in the model it
counts as raising, that is, as false. White space is ASCII.

## Verif/Ids/Model.lean

Model of the ids exchanged with the client.

Source: `/repo/_pydevd_bundle/_debug_adapter/pydevd_base_schema.py` `initialize_ids_translation`,
`_translate_id_to_dap`, `_translate_id_from_dap` (8-36); `/repo/_pydevd_bundle/pydevd_process_net_command_json.py`
`IDMap` (122-138), `on_gototargets_request`, `on_goto_request` (1223-1251), `on_stepin_request` (608-660);
`/repo/_pydevd_bundle/pydevd_comm.py` `internal_get_step_in_targets_json` (1056-1125).

The translation of ids has no lock and is used by all the threads that build messages: it is modelled in small steps.
Goto targets are only used by the reader thread.

## Verif/IgnoreExc/Model.lean

Model of the lines at which exceptions are ignored: the `@IgnoreException` comment in the source, the lines the client sent,
and the caches between them.

Source: `/repo/_pydevd_bundle/pydevd_frame.py` `IGNORE_EXCEPTION_TAG` (62), `handle_exception` (1206-1269) with the
module-level `filename_to_lines_where_exceptions_are_ignored` and `filename_to_stat_info` (1187-1188);
`/repo/_pydevd_bundle/pydevd_process_net_command.py` `cmd_ignore_thrown_exception_at` (708-732). The part of Python's
`linecache` that is used (`getline`, `checkcache`) is modelled with them.

Simplifications: files are numbers, and so is what `os.stat` says about one; dictionaries are functions; a query is atomic
with respect to edits of the file; source that `linecache` gets from a module loader is left out.

## Verif/ImportHook/Model.lean

Model of the functions that are called when modules are imported (used for matplotlib in consoles).

Source: `/repo/_pydev_bundle/pydev_import_hook.py` `ImportHookManager` (9-33) and its installation (36-37).

Simplifications: an import statement is a tree: the statements that are executed while the module is imported, whether the import succeeds,
and the statements the function of the module executes if it is called (up to the error, if it raises one: errors of functions are
caught). Nothing else sets `builtins.__import__`.

## Verif/Interp/Model.lean

Model of the interactive console: what is typed, and what the main thread runs.

Source: `/repo/_pydev_bundle/pydev_console_utils.py` `CodeFragment` (149-158),
`BaseInterpreterInterface.need_more_for_code` (189-221), `need_more` (223-229), `add_exec` (235-304),
`do_exec_code` (359-371), `execLine` (373-374), `execMultipleLines` (376-383), `interrupt` (385-397),
`start_exec` (402-403), `finish_exec` (418-426); `/repo/pydevconsole.py` `process_exec_queue` (258-302),
`Command` (28-55).

Two threads interleave: the one of the server, which handles the client's requests one after the other, and
the main thread, which takes what is to be run from a queue. They share `buffer`, the queue and
`interruptable`; each access to one of these is one action. A `KeyboardInterrupt` reaches the main thread at
any moment after it was asked for.

Simplifications: CPython (on Jython lines are added one by one); the queue's callables (used by GUIs), the
hooks for input and the redirection of `stdin` are not modelled; whether a text is complete is a function of
the text (the compiler also remembers `__future__` imports); the answer to the client is a log entry.

## Verif/Jump/Model.lean

Model of the jump events which the debugger uses with `sys.monitoring` on Python 3.12, where no line event comes when a
loop goes round within one line.

Source: `/repo/_pydevd_sys_monitoring/_pydevd_sys_monitoring.py` `FuncCodeInfo.get_line_of_offset` (447-452),
`_jump_event` (1396-1447), the beginning of `_line_event` (1456-1482).

Simplifications: the thread is traced and the code is not filtered out; what is done with a line that is considered
(`_internal_line_event`) is modelled in `Monitor` and `MonStep`; here the lines considered are listed. Files and code
objects are numbers.

## Verif/Lifecycle/Model.lean

Model of marking threads as suspended or running.

Source: `/repo/_pydevd_bundle/pydevd_thread_lifecycle.py` (all functions),
`/repo/_pydevd_bundle/pydevd_utils.py` `get_non_pydevd_threads` (139-141).

Simplifications: the list `threads` is what `threading.enumerate()` returns during the call (it does
not change meanwhile); `set_trace_for_frame_and_parents`, the `sys.monitoring` updates, logging and the
stepping registry (`update_stepping_info`, modelled elsewhere) are left out. A thread that has no
`additional_info` yet gets a default one (`set_additional_thread_info`), so every thread carries one in
the model; its defaults are those of `PyDBAdditionalThreadInfo.__init__`.

## Verif/LineReq/Model.lean

Requests of the line protocol ("CMD\tSEQ\tTEXT"): how the TEXT of a request is taken apart by the
handlers of `_PyDevCommandProcessor` (_pydevd_bundle/pydevd_process_net_command.py).

Simplifications: text is a list of characters; `str.strip()` and `int(..)` know ASCII white space and
ASCII digits only (Common/PyInt); a Python exception in a handler is `none`: `process_net_command`
(lines 64-81) turns it into an error reply and nothing else happens.

## Verif/LoadFull/Model.lean

Model of loading the full values of variables in the background.

Source: `/repo/_pydevd_bundle/pydevd_process_net_command.py` `cmd_load_full_value` (238-243); `/repo/_pydevd_bundle/pydevd_comm.py`
`InternalLoadFullValue` (1844-1878), `AbstractGetValueAsyncThread._on_run` (1896-1908); `/repo/_pydev_bundle/pydev_console_utils.py`
`loadFullValue` (472-511); `/repo/_pydevd_bundle/pydevd_vars.py` `resolve_var_object` (149-164).

Simplifications: as in `VarPath`. Whether time is over, or the thread was cancelled, when the variable with a number comes, is any function.
White space is that of ASCII.

## Verif/Locks/Model.lean

# The debugger's own locks

Every `with <lock>:` of the debugger and what is called while the lock is held, read function by
function.  A function of the code becomes a value of `Fn`; its `body` lists what it may do that
matters here: take a lock for the time of a region (`lock k r`: take a lock of kind `k`, run the
region `r`, give the lock back) or call another function.  A region is itself a value of `Fn`.

Control flow is forgotten: a running function may perform any of the entries of its body, in any
order, any number of times, and may return (or raise) at any moment.  Every execution of the code
is an execution of the model; the model has more.

What is not here: the locks inside Python (the mutex of `queue.Queue`, import locks, the internal
locks of `Event`), except `threading._active_limbo_lock`, which the debugger itself takes; waiting
for something other than a lock (`join`, `Event.wait`, sockets); locks taken by code of the user,
and code of the user which calls the public functions of the debugger from inside of an evaluation
or a `__str__`; finalizers run by the garbage collector.

## Verif/LogMsg/Model.lean

Model of log messages turned into expressions.

Source: `/repo/_pydevd_bundle/pydevd_utils.py` `_extract_variable_nested_braces` (205-216), `_extract_expression_list`
(219-235), `convert_dap_log_message_to_expression` (238-246).

What Python does with the text (`repr`, evaluation) is described in `Spec.lean`.

## Verif/Logging/Model.lean

Model of the log of the debugger: `pydevd.log_to`, the files of the processes, and temporary settings.

Source: `/repo/_pydev_bundle/pydev_log.py` (1-270), and `_on_forked_process` of `/repo/_pydev_bundle/pydev_monkey.py` (230-232).

Simplifications: an operation is one step (the two initializations that may race are made under a lock, 30-42); a target is a
directory and a base name; whether a file can be opened is an input; writing does not fail and messages are formatted; the
name of the open file, kept beside the stream, is left out; pids are not used again.

## Verif/Modules/Model.lean

Announcing modules: `ModulesManager.track_module` (`_pydevd_bundle/pydevd_net_command_factory_json.py` 59-112), called for every frame of a
`stackTrace` answer (`make_get_thread_stack_message`, 239-344).

Any number of threads build answers at the same time, one step at a time. A module is its file and its id; the name, version and package
are not modelled, and neither is the rest of the answer.

## Verif/MonExc/Model.lean

Model of exceptions under `sys.monitoring`: the handlers of the raise and unwind events, and what they do while an
exception travels through the frames of a thread.

Source: `/repo/_pydevd_sys_monitoring/_pydevd_sys_monitoring.py` `_get_unhandled_exception_frame` (192-248),
`_unwind_event` (900-953), `_raise_event` (963-1012), `update_monitor_events` (1879-1897);
`/repo/_pydevd_bundle/pydevd_frame.py` `should_stop_on_exception` (1064-1182, modelled in `Verif.Exceptions.Model`),
`handle_exception` (1202-1311); `/repo/pydevd.py` `do_stop_on_unhandled_exception` (2361-2375).

Simplifications: a frame is a number with the names the code looks at; the thread is traced, alive and runs while the
events happen; the answer of a template plugin is a parameter and does not depend on the frame; which lines carry the
ignore comment is a parameter (`Verif.IgnoreExc` models how it is found out). CPython's part is: in each frame the exception
reaches, the frame is put at the start of the traceback and a raise event happens; a frame may raise the same exception
again (`raise e` in a handler), which does the same once more; if the frame does not keep it, an unwind event follows.

## Verif/MonStep/Model.lean

Stepping, breakpoints and pauses of one thread with `sys.monitoring`: `_pydevd_sys_monitoring/_pydevd_sys_monitoring.py` (handlers of the
events), `pydevd.py` `set_suspend` (1916-1984), `_do_wait_suspend` (2192-2359), `set_trace_for_frame_and_parents` (2377-2424),
`_pydevd_bundle/pydevd_thread_lifecycle.py` `mark_thread_suspended`, `internal_run_thread` (28-59), `_pydevd_bundle/pydevd_comm.py`
`internal_step_in_thread` (714-727), `_pydevd_bundle/pydevd_frame.py` `handle_exception` (1202-1311).

The program runs functions, lines, returns and exceptions in any order; the interpreter reports an event to the debugger only if the
debugger has asked for it (globally for starts, for a code object for lines and returns) and did not switch it off at that location.

Two machines run the same program. The machine `opt` is the debugger as it is. The machine `all` gets every event.

Simplifications: one thread; Python 3.13 (no jump events); no generators or coroutines (see C56 for what happens with them), no smart step
into, no IPython scopes, no plugins; breakpoints and filters do not change; whether the condition of a breakpoint holds, and whether an
exception is one to stop at, is part of the event; return values that are shown are left out, but not the events that are enabled for them;
the thread is known to `threading`; the frame shown for an exception is the one that raises it.

## Verif/MonThread/Model.lean

Which thread an event is taken to be of, and if it is looked at, where the debugger uses `sys.monitoring` (Python 3.12 and newer).

Code modelled, in `_pydevd_sys_monitoring/_pydevd_sys_monitoring.py`: `_get_bootstrap_frame` (141-190),
`_create_thread_info` (327-373), `_get_thread_info` (459-478), `ThreadInfo` (261-297), the head of `_start_method_event`
(1714-1733; the other events have the same head), `start_monitoring` and `stop_monitoring` for one thread
(1813-1822, 1846-1854).

One thread of the operating system is followed; what is kept for it is in a thread local (`_thread_local_info`).

Simplifications: a frame is told by its number and by what the code looks at: the name of its file without directory and extension
and the name of its function. `isinstance(t, threading.Thread)` is part of the lookup of the local. The global debugger is there and not
disposed. Dummy threads are removed as `_DeleteDummyThreadOnDel` does (300-320) elsewhere.

## Verif/Monitor/Model.lean

Breakpoints and pauses with `sys.monitoring`: `_pydevd_sys_monitoring/_pydevd_sys_monitoring.py`, with the updates of
`pydevd.py` and `_pydevd_bundle/pydevd_api.py`.

Any number of threads run the program. A thread that causes an event runs the event's handler, one read at a time. One more
thread processes the commands of the client, one at a time (they hold `py_db._main_lock`). Everything is interleaved arbitrarily.

Line and start events are modelled; jump, return, raise and unwind events are not. Breakpoints are unconditional (conditions and
log messages are the subject of C50); there are no plugins. Whether other threads are stepping is a flag that changes arbitrarily,
and line events of a function can be enabled at any time (as stepping does).
The debugger is `ready_to_run`, every thread has `trace` set, and which files are filtered does not change.

The interpreter (`sys.monitoring`) is modelled as documented: a handler that returns `DISABLE` switches off the event at that
location of that code object when it returns, for all threads; `restart_events` switches all of them on again.

## Verif/NetCommand/Model.lean

Model of the wire format of outgoing messages.

Source: `/repo/_pydevd_bundle/pydevd_net_command.py`, `NetCommand.__init__` (58-102) and
`NetCommand.send` (104-119); quoting is `urllib.parse.quote(text, '/<>_=" \t')`
(`pydevd_utils.quote_smart`, 106-107).

Simplification: the text is its UTF-8 encoding (`quote` encodes before quoting; `msg.encode("utf-8")`
at 98 encodes the rest), so all functions are on bytes.

## Verif/NextTargets/Model.lean

Model of the answer to the question which lines a frame can be moved to ("set next statement").

Source: `/repo/_pydevd_bundle/pydevd_comm.py` `internal_get_next_statement_targets` (1129-1153).

Simplifications: a frame is its line and what `dis.findlinestarts` gives for its code; making and sending the messages does not fail.

## Verif/Notify/Model.lean

Model of the single "all threads stopped / continued" notification.

Source: `/repo/pydevd.py` class `AbstractSingleNotificationBehavior` (348-470) and
`ThreadsSuspendedSingleNotification` (473-515).

Every method that touches the state takes `_lock`, so each is one atomic action; the actions of any
number of threads interleave arbitrarily. `on_pause` releases the lock before it registers its timeout;
the timeout may run at any later moment, so the model keeps the set of pending request times and a
timeout is an action of its own.

Simplifications: the thread object stored with the id is not modelled; a callback is a number, and
whether it raises is a parameter; a `py_db` that was garbage collected (in which case nothing is sent)
is not modelled.

## Verif/OldLine/Model.lean

Model of the line of a template at which Django 1.8 or an older one is.

Source: `/repo/pydevd_plugins/django_debug.py` `_offset_to_line_number` (276-292), `_get_template_line` (366-385).

Simplifications: the loop is over what is left of the text, and the offset is counted from there. An exception is `none`.

## Verif/Options/Model.lean

The settings of a debug session: what the arguments of a launch or attach request turn on.

_pydevd_bundle/pydevd_json_debug_options.py (all of it) and
_pydevd_bundle/pydevd_process_net_command_json.py: `_resolve_remote_root` (340-345), `_set_debug_options`
(347-499); the setters of pydevd_api.py it calls and `PyDB.set_ignore_system_exit_codes` /
`ignore_system_exit_code` (pydevd.py 919-927), `PyDB.enable_output_redirection` (1603-1613, the flag only).

The processor with its `DebugOptions` belongs to one connection (pydevd_comm.py 165); the `PyDB` it sets up lives
as long as the process.

Simplifications: `rules` (C14), watching of files (C50) and symlinks are not here; `options` is a text or missing;
`int`, `str`, `upper` and `urllib.parse.unquote` are arbitrary functions.

## Verif/PatchArgs/Model.lean

Model of how the command line of a subprocess is changed so that the debugger runs in it.

Source: `/repo/_pydev_bundle/pydev_monkey.py`: `_get_setup_updated_with_protocol_and_ppid` (46-91),
`_separate_future_imports` (115-183), `_get_python_c_args` (186-213), `_is_managed_arg` (223-227), `is_python` (277-287),
`remove_quotes_from_args` (294-323), `quote_args` (359-363), `patch_args` (366-589), `patch_arg_str_win` (675-682).

Simplifications: arguments are strings (not `bytes` or `Path`, which go through the same steps). The parts that depend on
the process are in `Env`: the platform, the file of the debugger, the setup to hand over, the text that attaches the
debugger to code given by `-c` (`none` when there is no port), and where the last `from __future__` import of a code ends
according to Python's parser. Exceptions inside `patch_args` give back the arguments (587-589).

## Verif/Paths/Model.lean

Model of the client/server path mapping and of the source references.

Source: `/repo/pydevd_file_utils.py` `_fix_path` (645-661), `setup_client_server_paths` (712-900: the tables,
`_map_file_to_server` 782-836, `_map_file_to_client` 838-896), source references (664-703);
`/repo/_pydevd_bundle/pydevd_net_command_factory_json.py` 283-294 (the reference of a frame);
`/repo/_pydevd_bundle/pydevd_process_net_command_json.py` `on_source_request` (1174-1200).

Simplifications: case normalisation is per character (`str.lower` may change the length of a few characters, the
conversion of `~` names to long names on Windows is left out); `absolute_path`, `get_path_with_real_case`,
`os.path.abspath` and the file system are parameters.

## Verif/PluginBreaks/Model.lean

Model of the tables of breakpoints in templates of all files and kinds, and of the plugin manager between them and the debugger.

Source: `/repo/_pydevd_bundle/pydevd_api.py` `add_breakpoint` (548-633), `remove_all_breakpoints` (647-691), `remove_breakpoint` (693-757);
`/repo/pydevd.py` `consolidate_breakpoints` (1862-1868); `/repo/_pydevd_bundle/pydevd_plugin_utils.py` `PluginManager.add_breakpoint` (46-55),
`activate` (57-59), `get_breakpoints` (86-93), `has_line_breaks` (127-131), `get_breakpoint` (166-171);
`/repo/pydevd_plugins/django_debug.py` and `jinja2_debug.py` `add_line_breakpoint`, `_init_plugin_breaks`, `get_breakpoints`, `has_line_breaks`,
`get_breakpoint`.

Simplifications: file names are numbers and paths are not translated; breakpoints of Python files are those of `Breakpoints`; lines are not moved
(that is `Template`); a breakpoint is its kind, number and line. A plugin is asked at a line if `has_plugin_line_breaks` is set.

## Verif/Process/Model.lean

# Functions which start processes

Models the functions the debugger puts in place of those of Python that start or replace processes:
`/repo/_pydev_bundle/pydev_monkey.py` `skip_subprocess_arg_patch` (33-43), `monkey_patch_module` (685-694),
`create_warn_multiproc` (707-716), `create_execl` ... `create_subprocess_warn_fork_exec` (719-897), `create_fork` (933-971),
`send_process_created_message`, `send_process_about_to_be_replaced` (974-985), `patch_new_process_functions` (988-1050),
`patch_new_process_functions_with_warning` (1053-1095), on systems other than Windows and Jython.

The functions of Python they call in the end are those of its `os` module (`execl` calls `execv`, `execvp` looks for the file
along the search path and calls `execv`, `spawnl` calls `spawnv`, which forks and calls `execv` in the child, and so on), all
of which look up the functions they call in the module, where those of the debugger are; this is modelled, too.

Simplified:
* what the system answers to `execve` depends on the file alone (not on the directory, permissions or the environment);
* what `patch_args` (366-589) does is a parameter; the theorems about arguments use `PatchArgs`;
* for a function that takes the environment as its last argument (`execle`, ...) `patch_args` finds an argument which is no
  string and returns the arguments (379-382, 320-321);
* the process which forks is not one started by `subprocess` (see `Fork` for this).

## Verif/Pytest/Model.lean

Running tests with pytest: which tests run, and what the client is told of each.

Code modelled: `runfiles.py` `main` (100-138, the tests given for files, for pytest); `_pydev_runfiles/pydev_runfiles_pytest2.py` `_load_filters` (20-36),
`pytest_collection_modifyitems` (97-160), `_get_error_contents_from_report` and `append_strings` (174-211, strings of one type),
`pytest_runtest_logreport` (214-271).

Simplifications: `canonical_normalized_path` and `Path(…).resolve()` are given functions of paths. The way the filter takes through the environment is
left out (it is pickled). The time a test took is left out. Strings are all of one type.

## Verif/Reader/Model.lean

Model of the thread that reads commands from the client.

Source: `/repo/_pydevd_bundle/pydevd_comm.py`, class `ReaderThread` (153-327).

Simplifications
* The socket is the list of results that successive `recv` calls return; an empty result, or the
  end of the list, is end-of-file (an `OSError` in `recv` takes the same branch, 211-212/228-229).
  The `recv` size argument only bounds the size of a result and is not modelled: the theorems hold
  for every list of results, in particular those that respect the bound.
* `_kill_received` is set by other threads: its successive readings are an arbitrary oracle
  `kill : Nat → Bool` (n-th reading).
* After `line.decode("utf-8")` the code works on `str`; the model keeps the bytes, which is the same
  for splitting at tabs and parsing ASCII integers.
* Whether the JSON handler raises is a parameter (`process_net_command_json` is called inside the
  `try` whose `except` ends the session, 275/288-292).

## Verif/RealCase/Model.lean

The case of letters in paths, where the file system does not look at it: how the debugger finds the path as it is
on the disk, with a cache of listed directories.

pydevd_file_utils.py: `_resolve_listing` (144-167), `_resolve_listing_parts` (170-204), `get_path_with_real_case` on
Mac (286-297) and `_get_path_with_real_case` on Windows (240-259).

What a directory holds is asked of a file system that may change at any time. Lower case is letter by letter, each
letter giving a text (`lowC`); which is so but for the last sigma of a word.

Simplifications: names with `~` on Windows (247-248) are not here; `os.path.normpath`, `os.path.splitdrive` and
`upper` on Windows are arbitrary functions; messages to the log are left out.

## Verif/Redirect/Model.lean

# Redirecting the program's output

Models `_pydevd_bundle/pydevd_io.py` for one of `sys.stdout` and `sys.stderr`: the stack of
redirections, the one which sends output to the client, and what a write reaches.

A write holds the redirector's lock for all it does (`pydevd_io.py` 33), so it is one step here. A
write made while the same thread is inside a write of the same redirector is dropped (34-35); such
writes are left out, as are writes that raise.

## Verif/Reload/Model.lean

# Reloading the code of a module

Models `Reload` of `_pydevd_bundle/pydevd_reload.py`: the file is run in a new namespace, and what
the module has is updated in place from what came of it.

Simplified: objects are numbers in a heap; what running the file gives is arbitrary: a namespace and
objects. The order in which names are taken from sets is that of the new namespace, which is
arbitrary here. The hooks (`__xreload_old_new__`, `__xreload_after_reload_update__`) are left out, so
are classes which refuse to have attributes set. `fuel` stands for Python's limit on recursion: when
it is used up the `RecursionError` is caught by the innermost `_update`.

## Verif/Requests/Model.lean

# Requests of the Debug Adapter Protocol and their responses

`_pydevd_bundle/pydevd_process_net_command_json.py` (`PyDevJsonCommandProcessor`), with the part of
`pydevd_api.py` that posts work to the debuggee's threads, the internal commands of
`pydevd_comm.py` that send the answers later, and the two places of `pydevd.py` where internal
commands are run (`process_internal_commands`, `_do_wait_suspend`).

A request is *answered at once*, by the thread which reads the messages, or *later*: by a thread of
the debuggee which takes it from its queue, by whichever thread empties the queue for any thread,
by the callback called when threads have resumed, or (`goto`) by a thread which leaves the wait loop.

Simplifications:
* the contents of answers are left out, but for `success`;
* events (process, initialized, stopped, ...) are not answers and are left out;
* Python code which may raise and is not modelled further (launch options, exception options,
  evaluation in the debuggee) has a flag, chosen freely: `Request.raises`, `Outcome.raises`;
* threads start, end, stop and get or lose their variable references by actions of the environment.

## Verif/Resolver/Containers.lean

Dictionaries and sets: `DictResolver` and `SetResolver` of `_pydevd_bundle/pydevd_resolver.py`.

Not modelled: the attributes of the object, which are listed before the items; a container that changes while it is shown; containers whose
classes redefine iteration.

## Verif/Resolver/Model.lean

The items shown when a sequence is expanded: `TupleResolver`, `MoreItems` and `MoreItemsRange` of
`_pydevd_bundle/pydevd_resolver.py`.

Not modelled: the attributes of the object, which are listed before the items, and a sequence that changes while it is shown.

## Verif/ReturnValues/Model.lean

Model of the option to show return values: which returned values are recorded for the client while stepping.

Source: `/repo/_pydevd_bundle/pydevd_frame.py` `_show_return_values` (235-252) and its use (736-750) - the latter in `Dispatch.dispatch`,
effect `showReturn`; `/repo/_pydevd_sys_monitoring/_pydevd_sys_monitoring.py` `_show_return_values` (1039-1055), `_return_event`
(1088-1220), `_enable_step_tracing` (846-866, in `MonStep.stepTracing`).

## Verif/RunArgs/Model.lean

Model of the command line of the test runner.

Source: `/repo/runfiles.py` `main` (14-28, the arguments for another framework); `/repo/_pydev_bundle/_pydev_getopt.py`
`gnu_getopt` (17-60), `do_longs` (63-80), `long_has_args` (86-107), `do_shorts` (110-122), `short_has_arg` (125-129);
`/repo/_pydev_runfiles/pydev_runfiles.py` `parse_cmdline` (104-291).

Simplifications: the texts of errors are left out (any exception is `none`); the lines of a configuration file (read,
stripped and split) and the entries of the variable `PYDEV_RUNFILES_FILTER_TESTS` (parsed) are inputs; `int` and `strip` are
those of ASCII text.

## Verif/RunFile/Model.lean

Model of running a file in the interactive console.

Source: `/repo/_pydev_bundle/pydev_umd.py` `UserModuleDeleter` (38-93), `runfile` (132-181);
`/repo/_pydev_bundle/_pydev_execfile.py` `execfile`.

Simplifications: what the file does is an input: any function of the state, which says whether it raised (a file that cannot
be read or compiled raises). The file does not touch the module deleter. The arguments are text. `verbose` and messages are
left out. The namespace is given or that of the console: it is one dict.

## Verif/RunFiles/Model.lean

Model of how the test runner finds files and imports them.

Source: `/repo/_pydev_runfiles/pydev_runfiles.py` `__adjust_path` (326-347), `__is_valid_py_file` (349-358), `__importify`
(364-382), `__add_files` (384-389), `find_import_files` (391-462), `__get_module_from_str` (464-491),
`remove_duplicates_keeping_order` (493-496), `find_modules_from_files` (498-531).

Simplifications: paths are absolute and normal, and kept as lists of names (`normpath` and `unixify` change nothing);
directories are trees, without links; whether a name matches a pattern of the user (`fnmatchcase`) is an input; importing a
name gives a module or fails; what is printed is left out, except that a file is said to have no path.

## Verif/RunTests/Model.lean

# Which tests the test runner collects

Models `_pydev_runfiles/pydev_runfiles.py`: loading the tests of modules, by class and method names
if such are given, and filtering them.

Modules which could not be imported are left out. What `unittest` does when it loads a module is
modelled as far as the runner relies on it: each name of the module bound to a test class gives the
tests of that class, and a class of which no method is chosen gives `runTest` if it has one. The
`load_tests` hook is left out. Matching of patterns (`fnmatch.fnmatchcase`) is a parameter.

## Verif/SafeRepr/Model.lean

Model of the representation of values shown to the user.

Source: `/repo/_pydevd_bundle/pydevd_safe_repr.py` `SafeRepr._repr` (83-113), `_is_long_iter` (117-175), `_repr_iter`
(177-201), `_repr_long_iter` (203-212), `_repr_dict` (214-262), `_repr_str` (264-318), `_repr_obj` (323-366).

Objects live in a heap (any graph, cycles included). Simplifications: `raw_value` and `convert_to_hex` are off; the
`repr()` of an object of another type (or what replaces it when it raises) is an input; so is the escaping of one
character by Python's `repr` of text.

## Verif/SeqNum/Model.lean

Model of the generation of sequence numbers for messages the debugger originates.

Source: `/repo/_pydevd_bundle/pydevd_net_command.py` 51 and 65-67:

    if seq == 0:
        NetCommand.next_seq += 2
        seq = NetCommand.next_seq

`NetCommand.next_seq += 2` is a load, an addition and a store of a class attribute, and the next line is
another load; no lock is held. The model interleaves these three accesses of any number of threads.

## Verif/SetVar/Model.lean

Changing an element or attribute of something shown (the request `setVariable` of the debug adapter protocol
on a variable, not on the scope of a frame, which is in area `Evaluate`).

Code modelled:
* `_pydevd_bundle/pydevd_suspended_frames.py`: `_AbstractVariable.get_child_variable_named` (106-110),
  `_ObjectVariable.change_variable` (202-238),
* `_pydevd_bundle/pydevd_resolver.py`: `SetResolver.change_var_from_name` (587-604),
* `_pydevd_bundle/pydevd_comm.py`: `internal_change_variable_json` (906-953),
* `_pydevd_bundle/pydevd_process_net_command_json.py`: `on_setvariable_request` (1131-1158).

The variables shown, their expressions and the part of Python's grammar these are in are those of area
`EvalName`.  Simplifications: the text `expression=value` is taken to be the assignment of the value to the
target the expression is, if it is one (a value such as `1; y = 2` or `y = 1` makes more of it); a variable
always has its frame.

## Verif/Shadow/Model.lean

Model of the check that modules of the standard library are not hidden by files of the user.

Source: `/repo/_pydev_bundle/_pydev_saved_modules.py` `find_in_pythonpath` (5-21), `VerifyShadowedImport` (28-76), its uses (79-130).

Simplifications: the file system is two predicates. `os.path.join` puts `/` between a path and the parts unless the path is empty or ends in `/`;
no part begins with `/`. The attributes of a module are a list, reading one outside it raises. The message is kept as the name of the module and the
file it names.

## Verif/SourceMap/Model.lean

Model of the mapping of source files to runtime code (notebook cells).

Source: `/repo/_pydevd_bundle/pydevd_source_mapping.py` (whole file) and `/repo/_pydevd_bundle/pydevd_api.py`
`set_source_mapping` (999-1021), which fills `source_filename`.

Simplifications: the dict of tables is an association list in insertion order; the notification callback and the
re-application of breakpoints are left out; file names are already absolute; `normcase` is a parameter. The cache is
two association lists (its keys `(lineno, "client", f)` and `("has_entry", f)` never coincide).

## Verif/Stack/Model.lean

The stack shown for a suspended thread: the lists of frames made from a traceback and from chained exceptions
(`_pydevd_bundle/pydevd_frame_utils.py` 208-445), the frames that are visible (`_pydevd_bundle/pydevd_net_command_factory_xml.py`
197-247) and the answer to a `stackTrace` request (`_pydevd_bundle/pydevd_net_command_factory_json.py` 240-347,
`_pydevd_bundle/pydevd_process_net_command_json.py` 1001-1022).

Not modelled: columns (see `Columns`), source references (see `Paths`), the events about modules, frames without `f_code`
(IronPython).

## Verif/StackSize/Model.lean

Model of how the stack size of a code object with breakpoints put into it is computed.

Source: `/repo/_pydevd_frame_eval/vendored/bytecode/bytecode.py` `Bytecode.compute_stacksize` (192-194), `to_code` (196-202);
`/repo/_pydevd_frame_eval/vendored/bytecode/cfg.py` `_compute_stack_size` (88-164), `ControlFlowGraph.compute_stacksize`
(201-250), `from_bytecode` (342-397);
`/repo/_pydevd_frame_eval/vendored/bytecode/instr.py` `_pushes_back` (35-67), `pre_and_post_stack_effect` (300-327), `has_jump`
(349-353), `is_uncond_jump` (360-362), `is_final` (364-375).

The table of the interpreter, `dis.stack_effect`, is a parameter: `eff name arg jump`. `SetLineno` is left out, as in
`Verif.Bytecode.Model`. `check_pre_and_post` (cfg.py 201) keeps its default. `if block.next_block` (159) also is false for an empty block:
only the last block can be empty, and going to it changes nothing. A label is at one place of the code. Errors (`none`) make the insertion of breakpoints fail.

## Verif/Startup/Model.lean

# Starting to debug: `settrace`, launching a script, `_enable_attach` and `_wait_for_attach`

Model of how a process gets a debugger and how the user's threads wait for the client.

* `pydevd.py` 889-940 (`wait_for_ready_to_run`, `on_initialize`, `on_configuration_done`, `is_attached`,
  `on_disconnect`, `block_until_configuration_done`);
* `pydevd.py` 1475-1578 (`initialize_network`, `connect`, `create_wait_for_connection_thread`,
  `_WaitForConnectionThread`);
* `pydevd.py` 2571-2683 (`run`, up to the first line of the script), 2853-2918 (`_enable_attach`,
  `_wait_for_attach`, `_is_attached`), 3002-3181 (`settrace`, `_locked_settrace`), 3184-3215 (`stoptrace`) and
  3486-3697 (`main`, the parts around `connect` and `run`);
* `_pydevd_bundle/pydevd_api.py` 112-122, 214-222 and `pydevd_process_net_command_json.py` 281-293, 521-542,
  727-755 (the requests which decide when the program may go on).

The model is an interleaving one.  Any number of user threads may be inside `settrace` and `_wait_for_attach`
at the same time, every connection has a thread reading its requests, and every waiting socket has a thread
accepting connections.  One action is one step of one of those threads; an action which is not possible in a
state leaves it as it is.  `hist` is a ghost: what happened so far, in order.

Simplifications: authentication is not modelled here (`Auth`); a `disconnect` request is one without
`terminateDebuggee`; setting the trace function and marking the thread as suspended, which come after what is
modelled and cannot block, are not modelled; `settrace` takes `_set_trace_lock` as a plain lock
(`ForkSafeLock`, no fork here); `dispose_and_kill_all_pydevd_threads` is one step that unregisters the
debugger and closes its waiting socket; a reader thread which was asked to stop may go on handling requests
(it only looks at the flag between two reads), so requests of a connection are accepted at any time.

## Verif/StdIn/Model.lean

Model of the notifications about input which the program waits for.

Source: `/repo/_pydev_bundle/pydev_console_utils.py` `DebugConsoleStdIn` (96-146): `notify_input_requested`
(124-134), `readline` (136-138), `read` (140-142).

Any number of threads read, and a read may begin inside of another one of the same thread (a signal handler
which reads). The counter is shared: its change and the test which follows it are two actions.

Simplifications: the change of the counter (`+= 1`) is one action (in CPython no other thread runs between its
parts, though nothing says so); a failure to send the message is logged and changes nothing; what is read is
not modelled, whether the read raises makes no difference (`finally`).

## Verif/StepCalls/Model.lean

# The calls a line offers to step into, before Python 3.11

Models `_StackInterpreter` and `_get_smart_step_into_targets` of `/repo/_pydevd_bundle/pydevd_bytecode_utils.py`
(27-796), which follow the bytecode of a code object, block by block, with a stack of instructions, and name each
call after the instruction which put the called function on the stack.  Used for Python 3.8 to 3.10 (for later
versions see `StepInto`).

Simplified:
* instructions which the interpreter treats alike are one `Op`;
* the list of blocks of the control flow graph (`_pydevd_frame_eval/vendored/bytecode/cfg.py` 342-398) is one list
  of instructions with a mark, `cut`, where a new block begins: after an instruction that jumps or ends the code,
  and where some instruction jumps to;
* `func_name_id_to_code_object` maps the instruction which loaded the name of a comprehension (by identity) to its
  code; it is part of the entry on the stack here.  Nothing but that instruction's entry is ever looked up;
* the targets of the code object loaded by an instruction are computed when it is loaded, not when it is called;
* logging is left out.

## Verif/StepInto/Model.lean

# Stepping into a chosen call

Models, for Python 3.11 and later, `_pydevd_bundle/pydevd_bytecode_utils_py311.py`,
`_convert_target_to_variant` and `get_smart_step_into_variant_from_frame_offset` of
`_pydevd_bundle/pydevd_bytecode_utils.py`, the answer to `stepInTargets` of
`_pydevd_bundle/pydevd_comm.py` and the stops of `CMD_SMART_STEP_INTO` of
`_pydevd_bundle/pydevd_frame.py`.

Simplified: of code only its calls (instructions `CALL` with a position, in the order of the bytecode)
and the code objects it loads matter; the name of a target, the text of the call in the file, is given.

## Verif/Stepping/Model.lean

The registry of threads that are stepping: `_pydevd_bundle/pydevd_additional_thread_info_regular.py`.

Any number of threads run concurrently. An update reads the entries one by one under `_update_infos_lock`, while other threads
assign to the fields of their entries without the lock. An entry that is assigned to while it is read can be read as anything.
The order in which a set is iterated is arbitrary.

## Verif/StopReason/Model.lean

# The reason a client is told for a stop

Models how the reason of a `stopped` event comes to be: the commands kept for a thread
(`pydev_step_cmd`, `pydev_original_step_cmd`, `stop_reason`, `pydev_state`) as changed by
`_pydevd_bundle/pydevd_thread_lifecycle.py`, `_pydevd_bundle/pydevd_comm.py`,
`_pydevd_bundle/pydevd_api.py`, `pydevd.py`, and where the tracing stops a thread
(`_pydevd_bundle/pydevd_frame.py`, `_pydevd_sys_monitoring/_pydevd_sys_monitoring.py`); and the
`make_thread_suspend_message` and `make_thread_suspend_single_notification` of
`_pydevd_bundle/pydevd_net_command_factory_json.py`, which map the command to the reason alike.

One thread is modelled; whatever other threads and the client do to it comes in between. Not
modelled: the stops and steps of template plugins, and an evaluation which resumes the other threads.

## Verif/Tables/Model.lean

Model of showing arrays and data frames as tables.

Source: `/repo/_pydevd_bundle/pydevd_vars.py` `table_like_struct_to_xml` (651-666), `array_to_xml` (669-711), `array_to_meta_xml`
(714-780), `dataframe_to_xml` (783-861).

Simplifications: arrays have one or two dimensions (for more the first matrix is taken on the first load). Offsets and numbers of
rows and columns are not negative; -1 for both is `none`. Formats of cells, types, maxima and minima of arrays and the text
of the cells are left out: a table is its numbers of rows and columns and the object each cell is made from. A cell that is `none`
is an error (an index out of range), by which the whole request fails.

## Verif/Template/Model.lean

# Breakpoints in templates

Models `pydevd_plugins/pydevd_line_validation.py`, the parts of `pydevd_plugins/jinja2_debug.py` and
`pydevd_plugins/django_debug.py` which add and look up breakpoints, and how `_pydevd_bundle/pydevd_api.py`
and `consolidate_breakpoints` of `pydevd.py` keep them.

Simplified: one template file (the tables are by file, and nothing here is shared between files). The
lines of a template are given as the sorted tuple the code computes; the frozenset is compared by it.
Breakpoints are named by their ids.

## Verif/TemplateLines/Model.lean

The lines of a Django template on which a breakpoint may be: `/repo/pydevd_plugins/django_debug.py` `_DjangoValidationInfo`
(`_collect_valid_lines_in_template_uncached` 41-49, `_get_lineno` 51-54, `_iternodes` 56-70) and the cache of them in
`/repo/pydevd_plugins/pydevd_line_validation.py` `_collect_valid_lines_in_template` (28-43).

A node is what the code looks at of it: its line, whether its class is ignored, its `child_nodelists` (`none` where there is no such attribute) and its
attributes that are lists of nodes. Simplified: the nodes are a finite tree (so the recursion of the generator is given as much fuel as the tree is deep).

## Verif/TemplateStep/Model.lean

Stepping in templates.

Code modelled: `pydevd_plugins/jinja2_debug.py` `_find_jinja2_render_frame` (165-169), `cmd_step_into` (387-414), `cmd_step_over` (417-451),
`stop` (454-460) with `_suspend_jinja2` (135-150); `pydevd_plugins/django_debug.py` `cmd_step_into` (501-508), `cmd_step_over` (511-524),
`stop` (527-533) with `suspend_django` (246-253).

What is modelled are the events that reach these functions while a step command is set (`_pydevd_bundle/pydevd_frame.py` 882-898, which leaves
out pauses of generators, 395-411; `_plugin_stepping` of `_pydevd_sys_monitoring.py` 1358-1385). What a frame is (the tests of names, classes
and locals of the plugins) is given with it. One plugin is active.

Simplifications: `pydev_call_from_jinja2` is a flag (it is only compared to `None`, or put in `pydev_step_stop` when a step ends in a template).

## Verif/TemplateVars/Model.lean

The variables shown for a frame of a template, and changing one.

Code modelled: `pydevd_plugins/jinja2_debug.py` `Jinja2TemplateFrame._get_real_var_name` (203-208), `collect_context` (210-220),
`_change_variable` (222-237) as called by `change_variable` (252-257); `pydevd_plugins/django_debug.py` `DjangoTemplateFrame._collect_context`
(401-409) and `_change_variable` (411-415) as called by `change_variable` (430-435).

Simplifications: values are opaque, with their truth and whether they are Jinja2's `missing`. Digits are those of ASCII. The items of a Jinja2
context are given as a dictionary (its `items()` are those of its variables over those of its parent).

## Verif/Terminate/Model.lean

Model of the termination of child processes.

Source: `/repo/_pydevd_bundle/pydevd_api.py` `_terminate_child_processes_linux_and_mac` (1071-1108),
`_terminate_child_processes_windows` (1051-1069); `/repo/pydevd.py` `dont_terminate_child_pids` (572),
`add_dont_terminate_child_pid` (3366-3381).

The routine runs while the processes of the system go on: between any two of its actions processes may fork,
end and be waited for. An action of the routine is one external command (`kill -STOP`, `pgrep -P`, `kill -KILL`)
or one turn of a loop. An execution is any list of actions of the routine and of the environment.

Simplifications: the commands `kill` and `pgrep` are there and succeed (`_call` and `_popen` swallow errors); a
signal has taken effect when the command that sends it is over; a process identifier is not used again while the
routine runs; nobody else stops, continues or kills processes; a process ends on its own only when it has no
living children (else its children are found under the init process from then on, and this routine cannot find
them). On Windows only the choice of the processes given to `taskkill` is modelled.

## Verif/ThreadEvents/Model.lean

Model of the 'thread started' / 'thread exited' events.

Source: `/repo/pydevd.py` `notify_thread_created` (1705-1728), `notify_thread_not_alive` (1730-1749),
`set_enable_thread_notifications` (1751-1759) and the polling part of `process_internal_commands`
(1774-1807).

`notify_thread_created`/`notify_thread_not_alive` decide under `_lock_running_thread_ids` and hand the
message to the writer *after* releasing it (1728, 1749): the decision and the hand-over are two actions.
During polling the lock is held around everything, so polling is one action.

Simplifications: a thread object is a number, a thread id another one (ids may be reused by another
object); `pydev_notify_kill` lives in the `additional_info` attached to the thread object, which is
never detached; the test `self.writer is None` is not modelled; `clear_cached_thread_id` (1792) is not
modelled: the ids of the threads found by polling are arbitrary.

## Verif/ThreadIds/Model.lean

The ids of threads: how a thread object gets the id under which the client knows it, over several processes
made by forking.

_pydevd_bundle/pydevd_constants.py: `clear_cached_thread_id` (615-623), `_thread_id_to_thread_found` (627),
`_get_or_compute_thread_id_with_lock` (630-646), `get_current_thread_id` (649-666), `get_thread_id` (669-681),
`set_thread_id` (684-686); pydevd_thread_lifecycle.py: `pydevd_find_thread_by_id` (12-26); pydevd.py:
`process_internal_commands` (1777-1796), which clears the cached ids in a new process; fork copies everything
(pydev_monkey.py `create_fork` 932-971).

An object is a number that is never used twice (`Uid`); its address (`id(thread)`) may be used again once it was
collected. Each action is one critical section under `_thread_id_lock`, or the read of the attribute without
lock, which is atomic and gives the answer of a section that would start then.

Simplifications: `set_thread_id` is called with `"console_main"` only, as in the code
(pydev_console_utils.py 555); process ids are not used again; the id of a process is a number.

## Verif/ThreadPatch/Model.lean

Model of how the functions that start threads are replaced, and of what a thread started through them does.

Source: `/repo/_pydev_bundle/pydev_monkey.py`: `_NewThreadStartupWithTrace` (1099-1143), `_NewThreadStartupWithoutTrace`
(1146-1153), `patch_thread_module` (1174-1247), `patch_thread_modules` (1250-1252), `undo_patch_thread_modules` (1255-1280),
`disable_trace_thread_modules` and `enable_trace_thread_modules` (1283-1296), `get_original_start_new_thread` (1299-1303).

Simplifications: objects of the program are numbers; what a function of the program does is a parameter (it returns or raises
something). Calls of the debugger's own functions (notifications, tracing) do not fail. The concurrency analyser
(`thread_analyser`) is off.

## Verif/ThreadReqs/Model.lean

Model of the requests of the debug adapter protocol to pause, continue and step.

Source: `/repo/_pydevd_bundle/pydevd_process_net_command_json.py` `on_pause_request` (544-554), `on_continue_request` (556-584),
`on_next_request` (586-601), `on_stepin_request` (646-658, without a target), `on_stepout_request` (683-698);
`/repo/_pydevd_bundle/pydevd_api.py` `request_suspend_thread` (177-201), `request_resume_thread` (223-224), `request_step`
(252-264); `/repo/pydevd.py` `PyDB.set_suspend` (1948-1961); `/repo/_pydevd_bundle/pydevd_comm.py` `internal_step_in_thread`
(714-725).

Simplifications: those of the area Lifecycle, of which the threads and their states are used. The commands posted for threads
are one list; a command is done at any later time by an action of its own (that it is done by that thread is the area
CmdQueue). Tracing, `sys.monitoring` and the notifications of stopped threads are other areas. The answer to a continue
request in the mode with one notification for all threads is sent when the threads have resumed; here it is sent at once.

## Verif/Timeout/Model.lean

Model of the timeout tracker.

Source: `/repo/_pydevd_bundle/pydevd_timeout.py`: `_TimeoutThread` (24-105), `_OnTimeoutHandle`
(107-155), `TimeoutTracker.call_on_timeout` (167-194).

Two kinds of threads interleave: clients (registering a handle; leaving the `with` block of a handle)
and the timeout thread (running passes over the handles). Registration takes the timeout thread's lock,
so it cannot happen during a pass; leaving a `with` block takes another lock (the tracker's), so it can
happen at any point of a pass. Each access to a handle's attributes is one action. The times that
`time.time()` returns are arbitrary (not even monotone).

Simplifications: times are integers; a handle is a number; a callback that raises is caught and logged
(127-128), so it behaves like one that returns; registering from inside a callback (which would
dead-lock on the non-reentrant lock) is not an action; the end of the thread (which drops the handles,
43-45) is not an action.

## Verif/TopLevel/Model.lean

Model of how the tracing debugger finds the frame in which exceptions count as uncaught, and of what it does with the
exceptions that get there.

Source: `/repo/_pydevd_bundle/pydevd_trace_dispatch_regular.py` `fix_top_level_trace_and_get_trace_func` (82-213),
`trace_dispatch` (216-223), `TopLevelThreadTracerOnlyUnhandledExceptions` (237-257), `TopLevelThreadTracerNoBackFrame`
(276-336, whose `trace_dispatch_and_unhandled_exceptions` is `TryExcept.trace`, see C25); `/repo/pydevd.py`
`PyDB.set_trace_for_frame_and_parents` (2377-2424), which is called when a thread goes on from a stop.

One thread is modelled: its stack, the tracing function of the thread (`sys.settrace`) and the tracing functions of the
frames (`f_trace`). As in CPython a call is given to the thread's function, whose result becomes the frame's; all other
events are given to the frame's own function, if it has one. An exception which goes through a frame gives that frame
an exception event when it arrives and a return event when it leaves; `raise` without an exception gives no event of
its own.

Simplifications: what the tracers of ordinary frames do (`ThreadTracer`, `PyDBFrame`) is modelled elsewhere; here they
are one tracer `other` which leaves the other frames alone. A tracer which takes itself off a frame has no effect on
what is modelled here and is left out. Exceptions are numbers.

## Verif/TraceProp/Model.lean

Properties of classes while the debugger can leave their code out of tracing: the type put in the place of
`property`, its accessors, and the command that sets what is left out.

pydevd_traceproperty.py (all), pydevd_process_net_command.py `cmd_set_property_trace` (553-577), pydevd.py
`enable_tracing` (1122-1164) and `disable_tracing` (1166-1170) as far as the current thread goes.

Simplifications: the frames of `__get__`, `__set__` and `__delete__` themselves are files of the debugger and are not
traced; functions are names (`F`); what the code of an accessor does is a tree of lines and calls.

## Verif/TryExcept/Model.lean

Model of the decision whether an exception leaves a function unhandled.

Source: `/repo/_pydevd_bundle/pydevd_collect_bytecode_info.py` `TryExceptInfo` (12-35), `_Visitor` (416-467),
`collect_try_except_info_from_contents` (476-480); `/repo/pydevd.py` `collect_try_except_info` (783-802);
`/repo/_pydevd_bundle/pydevd_frame.py` `is_unhandled_exception` (78-112);
`/repo/_pydevd_bundle/pydevd_trace_dispatch_regular.py` `TopLevelThreadTracerNoBackFrame` (289-333).

Simplifications: only the path through the source (the bytecode fallback is not modelled: `none` stands for it);
Python 3.8 or later, so that handlers have `end_lineno` and `max_line` is not used. The syntax tree keeps only what the
visitor looks at.

## Verif/TypeCache/Model.lean

How it is decided which resolver expands a value and which text is shown for it, with the two caches by type.

Code modelled:
* `_pydevd_bundle/pydevd_xml.py`: `TypeResolveHandler.get_type` (154-177), `_get_type` (179-207),
  `_get_str_from_provider` (221-227), `str_from_providers` (229-250), `get_variable_details` (320-385).

Simplifications: what the program's objects, the extensions and the table of types
(`_create_default_type_map`, 39-133) answer is a parameter (`World`) and the same whenever it is asked;
`_initialize` is part of making the handler; the texts made when no extension provides one (360-379) are
one function of the value; the debugger's own `ExceptionOnEvaluate` is taken out before; Jython is left out.

## Verif/VarPath/Model.lean

Variables of the line protocol are found again by their path: scope, name and the names of what was opened.

Source: `/repo/_pydevd_bundle/pydevd_process_net_command.py` `cmd_get_variable`, `cmd_get_array` (209-232);
`/repo/_pydevd_bundle/pydevd_vars.py` `getVariable` (51-125), `resolve_compound_variable_fields` (128-146);
`/repo/_pydevd_bundle/pydevd_resolver.py` `DefaultResolver`, `DictResolver`, `MoreItemsRange`, `MoreItems`, `TupleResolver`, `SetResolver`
(63-582); `/repo/_pydevd_bundle/pydevd_comm.py` `InternalGetVariable`, `InternalGetArray` (816-883).

Simplifications: objects are plain objects, lists and tuples, dictionaries, sets, and basic values; other resolvers (numpy, Django, frames,
plugins) are not modelled. The program does not change while it is paused. Reading an attribute twice gives the same. An exception is `none`.

## Verif/Wake/Model.lean

# Waking a thread whose state was changed

Models the bookkeeping of who is stepping, and the waking of suspended threads, of
`_pydevd_bundle/pydevd_additional_thread_info_regular.py`, and how `pydevd.py` waits.

Python sets are lists here; the order in which Python goes through a set is arbitrary, so every
update takes the two orders in which its loops go through the sets.

## Verif/WinQuote/Model.lean

Model of the quoting and the splitting of Windows command lines.

Source: `/repo/_pydev_bundle/pydev_monkey.py`, `quote_arg_win32` (326-356), `quote_args` (359-363, on Windows),
`str_to_args_windows` (592-672), `patch_arg_str_win` (680, the joining of the arguments).

Simplifications: an argument is a list of characters (the code also takes `bytes`, with the same steps). The two calls
of `re.sub` are given as the scans they perform: leftmost matches, the run of backslashes greedy.

## Verif/Writer/Model.lean

Model of the thread that writes messages to the client.

Source: `/repo/_pydevd_bundle/pydevd_comm.py`, class `WriterThread` (363-448).

The model is an interleaving of atomic actions of the writer loop and of any number of other threads:
* `add_command` (377-380) is two actions, the test of `_kill_received` and the `put` (another thread
  may run in between);
* `do_kill_pydev_thread` (441-448) is `add_command(exit)` followed by setting the flag, here the
  actions `check exit`, `put exit`, `setKill`; the first test of the flag (443) only decides whether
  these actions happen at all;
* a turn of the writer loop is: `get` returns a message, which is then sent (390, 422), or `get`
  raises `Empty` (391) and *afterwards* the flag is read (392).
The 0.1 s timeout is abstracted: `Empty` may be raised at any moment at which the queue is empty.
Messages of type `_NullNetCommand` send nothing; the model's "sent" list is the list of `cmd.send`
calls that succeeded.

## Verif/Xml/Model.lean

Model of the XML messages: escaping, quoting and the messages for variables, threads, frames and output.

Source: `/repo/_pydevd_bundle/pydevd_xml.py` `make_valid_xml_value` (26-28), `var_to_xml` (395-434);
`/repo/_pydevd_bundle/pydevd_net_command_factory_xml.py` `_thread_to_xml` (71-75),
`make_custom_frame_created_message` (103-106), `make_io_message` (167-182), `make_thread_stack_str` (249-277).

Simplifications: text has no surrogates (`quote` raises on them); the details of a value (`get_variable_details`,
`get_var_scope`) are inputs.
