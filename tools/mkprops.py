#!/usr/bin/env python3
"""Generates /verif/properties.jsonl from the table below (plain data, nothing else)."""
import json
import os

P = []


def p(id, title, statement, quantifier, why, anchors):
    P.append(dict(id=id, title=title, statement=statement, quantifier=quantifier, why_tests_cant=why, anchors=anchors))


B = "_pydevd_bundle/"

p("C01", "Incoming messages do not depend on how the network splits the bytes",
  "Whatever the client sends, the sequence of messages the debugger processes is a function of the concatenated bytes only, provided no length header is negative: any two ways of cutting the same byte stream into non-empty socket reads give the same messages in the same order and the same end of session.",
  "every byte stream, every split of it into reads, both the line protocol and Content-Length framing, interleaved",
  "The number of splits of a stream is exponential in its length and a test fixes one split per run; the property relates all of them.",
  [B + "pydevd_comm.py:ReaderThread._read", B + "pydevd_comm.py:ReaderThread._read_line", B + "pydevd_comm.py:ReaderThread._on_run"])

p("C02", "Content-Length framing round-trips",
  "If one side writes any sequence of non-empty payloads using the HTTP-style framing of outgoing messages, the reader on the other side delivers exactly those payloads, in order, without merging, splitting or losing any, however the bytes are split.",
  "every finite sequence of non-empty payloads of arbitrary bytes (including payloads that contain CR, LF, or the text 'Content-Length:')",
  "Payload contents and lengths are unbounded; resynchronisation bugs only appear for particular contents that look like framing.",
  [B + "pydevd_net_command.py:NetCommand.send", B + "pydevd_net_command.py:NetCommand.__init__", B + "pydevd_comm.py:ReaderThread._on_run"])

p("C03", "Quoted line protocol round-trips",
  "For every command id, sequence number and text, an outgoing message in the quoted line protocol is exactly one line, and parsing that line and unquoting its text gives back the same id, sequence number and text.",
  "every id, seq and every text over all byte values",
  "The quoting must be injective over all strings; tests use a handful of strings.",
  [B + "pydevd_net_command.py:NetCommand.__init__", B + "pydevd_comm.py:ReaderThread._on_run"])

p("C04", "Outgoing messages are sent in order, at most once, and nothing after exit",
  "For every interleaving of threads that enqueue messages with the writer, the bytes sent are the messages in the order they were accepted, without duplicates; no message is sent after the exit message; if the socket does not fail, every message accepted before the exit message is sent; after the writer was told to stop no new message is accepted.",
  "every schedule of enqueue, kill and writer-loop steps",
  "The schedule space is unbounded and depends on thread timing.",
  [B + "pydevd_comm.py:WriterThread.add_command", B + "pydevd_comm.py:WriterThread._on_run", B + "pydevd_comm.py:WriterThread.do_kill_pydev_thread"])

p("C05", "Sequence numbers of debugger-initiated messages are unique",
  "Any two messages the debugger originates carry different sequence numbers, and their parity never collides with the numbers of the client.",
  "every schedule of threads creating messages",
  "Non-atomic read-modify-write races need one particular interleaving; a test almost never hits it.",
  [B + "pydevd_net_command.py:NetCommand._next_seq", B + "pydevd_net_command.py:NetCommand.__init__"])

p("C06", "A command posted for 'any thread' runs at most once",
  "A command addressed to any thread, offered to arbitrarily many threads that may try to run it concurrently, is executed at most once, and exactly once when at least one attempt was started and every started attempt has returned.",
  "every number of threads and every interleaving of their attempts",
  "At-most-once under races cannot be established by sampling schedules.",
  [B + "pydevd_comm.py:InternalThreadCommandForAnyThread", B + "pydevd_comm.py:InternalThreadCommandForAnyThread.can_be_executed_by", B + "pydevd_comm.py:InternalThreadCommandForAnyThread.do_it"])

p("C07", "Per-thread internal commands are neither lost, duplicated nor reordered",
  "Draining the pending commands of a suspended thread runs exactly the commands that thread may run, each once and in posting order, and leaves every other pending command queued in its original order.",
  "every queue content, every thread, every interleaving of posts and drains",
  "Queue contents and histories are unbounded.",
  ["pydevd.py:PyDB.process_internal_commands", "pydevd.py:PyDB.post_internal_command", "pydevd.py:PyDB.get_internal_queue_and_event", B + "pydevd_comm.py:InternalThreadCommand.can_be_executed_by"])

p("C08", "Timeout callbacks fire at most once, never early, and never after cancellation is observed",
  "A callback registered with a timeout is called at most once, only at a time not before its deadline, and is not called if the guarded block ended before the tracker looked at the handle. Afterwards neither the callback nor its arguments are kept, and the tracker waits until the next deadline unless a callback is registered.",
  "every set of handles, every sequence of clock readings, registrations, cancellations and wakeups",
  "Depends on clock values and interleavings that a test cannot enumerate.",
  [B + "pydevd_timeout.py:_OnTimeoutHandle", B + "pydevd_timeout.py:_TimeoutThread", B + "pydevd_timeout.py:TimeoutTracker.call_on_timeout"])

p("C09", "No request is executed before authentication",
  "When an access token is configured, no command or request other than authentication itself has any effect until the client has presented the right token; each refused request gets an error response.",
  "every sequence of requests, every token",
  "Quantifies over all request histories.",
  [B + "pydevd_process_net_command_json.py:PyDevJsonCommandProcessor.process_net_command_json", B + "pydevd_process_net_command.py:_PyDevCommandProcessor.process_net_command", "pydevd.py:_Authentication"])

p("C10", "At most ten wrong tokens may be tried",
  "Between two session resets, after ten consecutive wrong login attempts no later attempt, right or wrong, changes the authentication state; before that, a login succeeds exactly when the token is right.",
  "every sequence of login attempts and logouts",
  "An invariant over unbounded histories.",
  ["pydevd.py:_Authentication.login", "pydevd.py:_Authentication.logout", "pydevd.py:_Authentication.is_authenticated"])

p("C11", "All-threads suspend/resume notifications are well bracketed",
  "In single-notification mode, per pause request at most one 'all threads stopped' event is sent; an 'all threads continued' event is sent only if a stop event was sent after the previous continue event; and once no thread is suspended the client is not left believing that threads are stopped.",
  "every interleaving of pause requests, thread suspends, thread resumes and notification timeouts",
  "History property over unbounded numbers of threads and events.",
  ["pydevd.py:AbstractSingleNotificationBehavior", "pydevd.py:ThreadsSuspendedSingleNotification"])

p("C12", "Each 'on resumed' callback is called exactly once",
  "A callback registered to run when threads resume (used to answer a continue request) is called exactly once: at the first resume notification after its registration, never twice.",
  "every sequence of registrations and resume notifications",
  "Exactly-once over all histories.",
  ["pydevd.py:ThreadsSuspendedSingleNotification.add_on_resumed_callback", "pydevd.py:ThreadsSuspendedSingleNotification.send_resume_notification"])

p("C13", "Thread started/exited events alternate per thread",
  "Within one client session (between two enablings of thread notifications), for each thread id, the stream of thread events sent to the client alternates started, exited, started, ..., beginning with started: never two starts without an exit between them nor an exit without a start.",
  "every history of thread polling, thread exits and enabling/disabling of notifications",
  "A history invariant over arbitrarily many threads.",
  ["pydevd.py:PyDB.notify_thread_created", "pydevd.py:PyDB.notify_thread_not_alive", "pydevd.py:PyDB.set_enable_thread_notifications"])

p("C14", "Suspend-all and resume affect exactly the addressed threads",
  "Suspending all threads marks every debuggable thread as suspended except the excluded one and the threads opted out of tracing, and changes no other thread; resuming thread id T (or '*') puts exactly the addressed threads back to running with no step pending. A thread that stops is suspended for the step first asked for, or else the reason given, and keeps a step under way.",
  "every set of threads and states",
  "Ranges over all thread populations.",
  [B + "pydevd_thread_lifecycle.py:suspend_all_threads", B + "pydevd_thread_lifecycle.py:resume_threads", B + "pydevd_thread_lifecycle.py:mark_thread_suspended", B + "pydevd_thread_lifecycle.py:internal_run_thread"])

p("C15", "Variable references are valid exactly while their thread is suspended",
  "While a thread is suspended, every variable or frame reference handed out for it resolves to the value it was handed out for; once the thread resumes, every such reference fails to resolve unless another suspended thread handed it out too; other threads' references are unaffected.",
  "every history of suspends, lookups, expansions and resumes over any number of threads",
  "Stale-reference bugs need particular histories.",
  [B + "pydevd_suspended_frames.py:SuspendedFramesManager", B + "pydevd_suspended_frames.py:_FramesTracker"])

p("C16", "Variable grouping loses and duplicates nothing",
  "The children shown for an object under each presentation setting (inline, group, hide per category) contain every child that is not in a hidden category exactly once, inline or inside its group, groups come first in a fixed order and the order inside is preserved; nothing of a hidden category is shown.",
  "every list of children, every presentation configuration",
  "All lists and all configurations.",
  [B + "pydevd_suspended_frames.py:_AbstractVariable._group_entries"])

p("C17", "Setting breakpoints for a file replaces exactly that file's breakpoints",
  "After any history of set/remove requests, the breakpoints that can be hit in a file are the ones of the last set request of that file that were not removed since, one per line (the last added one wins when several share a line), and requests for one file never change another file's breakpoints. Proviso: the client names each file in one way, and each server file belongs to one client file.",
  "every history of breakpoint requests over any number of files, lines and ids",
  "Refinement over unbounded histories.",
  [B + "pydevd_api.py:PyDevdAPI.add_breakpoint", B + "pydevd_api.py:PyDevdAPI.remove_breakpoint", B + "pydevd_api.py:PyDevdAPI.remove_all_breakpoints", "pydevd.py:PyDB.consolidate_breakpoints"])

p("C18", "A breakpoint moves only to the nearest preceding executable line",
  "When line adjustment is requested, a breakpoint on a line with no code moves to the greatest executable line not after it, and stays where it is when there is none before it; a breakpoint on an executable line never moves.",
  "every set of executable lines and every requested line",
  "All line tables.",
  [B + "pydevd_api.py:PyDevdAPI.add_breakpoint", "pydevd.py:PyDB.consolidate_breakpoints"])

p("C19", "Every breakpoint in a request is answered, in order, with a fresh id",
  "The response to a setBreakpoints request has one entry per requested breakpoint, in the same order, and breakpoint ids are never reused within a session.",
  "every sequence of setBreakpoints/setFunctionBreakpoints requests",
  "Id freshness over all histories.",
  [B + "pydevd_process_net_command_json.py:PyDevJsonCommandProcessor.on_setbreakpoints_request", B + "pydevd_process_net_command_json.py:PyDevJsonCommandProcessor.on_setfunctionbreakpoints_request"])

p("C20", "Hit-count conditions stop on the documented hits",
  "For a hit condition '==n'/'n', '>n', '>=n', '<n', '<=n' or '%n', the program stops exactly on the hits whose ordinal satisfies the relation ('%n' and a bare number as documented), counting every hit once even when hit by several threads.",
  "every condition form, every number, every hit ordinal, every interleaving of threads hitting it",
  "All ordinals and all interleavings.",
  [B + "pydevd_process_net_command_json.py:PyDevJsonCommandProcessor._get_hit_condition_expression", B + "pydevd_breakpoints.py:LineBreakpoint.handle_hit_condition"])

p("C21", "The exception breakpoint used is the most specific one",
  "For a raised exception type, the breakpoint consulted is the one registered for that exact type if any, else one registered for a superclass such that no other registered superclass is a subclass of it; none if no superclass is registered.",
  "every class hierarchy and every set of registered exception breakpoints",
  "All hierarchies and registration orders.",
  [B + "pydevd_breakpoints.py:get_exception_breakpoint"])

p("C22", "The skip caches never hide a breakpoint",
  "If a line has an enabled breakpoint then a line event there is never discarded because of what the debugger remembered about that frame or line, provided breakpoint changes are seen before the event starts.",
  "every history of breakpoint changes and trace events",
  "Cache staleness depends on histories and interleavings.",
  [B + "pydevd_frame.py:PyDBFrame.trace_dispatch", "pydevd.py:PyDB._clear_skip_caches", "pydevd.py:PyDB.consolidate_breakpoints"])

p("C23", "Stepping stops where the step command says",
  "With no breakpoint or pause involved: 'step over' stops only at a line event of the frame where the step began (or, once that frame returns, as a step into); 'step return' stops only when that frame returns; 'step into' stops at the next line event of unfiltered code; a step into in a coroutine stops only in that coroutine and what it calls, and a step over at the end of a generator goes on in the nearest caller that is not filtered out; no step stops in a function marked not to be traced; while running without a step nothing stops.",
  "every event, frame relation, filter answer and step command",
  "A decision over all combinations, and over event sequences.",
  [B + "pydevd_frame.py:PyDBFrame.trace_dispatch", B + "pydevd_frame.py:PyDBFrame._is_same_frame"])

p("C24", "Control-flow exceptions never break",
  "Generator exit, stop-iteration and ignored system-exit exceptions never stop the program on a caught-exception breakpoint, nor does any exception while the thread is already suspended; and a stop on a caught exception happens only if a matching breakpoint's condition and its raise-location options allow it.",
  "every exception, every breakpoint configuration, every traceback shape",
  "All combinations of options and tracebacks.",
  [B + "pydevd_frame.py:should_stop_on_exception"])

p("C25", "'Unhandled in this function' is decided by the try/except structure",
  "When a function returns after an exception was seen in it, the exception is reported as unhandled by the function exactly when the function returns from a line where an exception was raised, or the last raising line is outside every try block with handlers, or it returns from the first except line or a bare raise of the handlers of some try statement. In particular an exception that leaves the function is always reported. The try statements considered are exactly those of the source file that have handlers (without except*).",
  "every source file (any nesting of try statements), every sequence of trace events of the function",
  "All nestings of regions and all event sequences.",
  [B + "pydevd_frame.py:is_unhandled_exception", B + "pydevd_collect_bytecode_info.py:TryExceptInfo", B + "pydevd_collect_bytecode_info.py:_Visitor"])

p("C26", "Path globs have the documented meaning",
  "A file matches a path rule exactly when its components match the rule's components, where '**' stands for any number of components (at least one when it is last) and other wildcards stay inside one component; drive letters are compared ignoring case.",
  "every path and every pattern",
  "Recursive matcher over all inputs.",
  [B + "pydevd_filtering.py:_check_matches", B + "pydevd_filtering.py:glob_matches_path"])

p("C27", "The first matching filter rule decides, and more specific rules come first",
  "Whether a file is excluded is decided by the first rule that matches it. Of the client's rules, the longest matching directory rule decides (the first among equally long ones); failing that the first matching wildcard rule in the client's order; failing that the longest matching module rule; with no matching rule no rule-based exclusion happens.",
  "every rule set, file and module name",
  "All rule sets.",
  [B + "pydevd_process_net_command_json.py:_convert_rules_to_exclude_filters", B + "pydevd_filtering.py:FilesFiltering.exclude_by_filter"])

p("C28", "The innermost configured root decides whether a file is user code",
  "With project roots configured, a file is user code exactly when it lies under a project root and under no library root at least as deep; with none configured, exactly when it lies under no library root.",
  "every set of roots and every file name",
  "All root sets.",
  [B + "pydevd_filtering.py:FilesFiltering.in_project_roots", B + "pydevd_filtering.py:FilesFiltering._fix_roots"])

p("C29", "Filter answers do not depend on earlier questions",
  "The answer to 'is this frame excluded / in project scope' is the same as if nothing had been asked before, for every history of questions and configuration changes, provided that functions with the same file, name and first line are in modules of the same name, that equal code compiled under the name <string> is always or never called from user code, and that no setting changes while a question is being answered.",
  "every history of questions and setting changes (file rules, project roots, library filter, source mappings, start/end patterns, breakpoint changes)",
  "Cache coherence over all histories.",
  ["pydevd.py:PyDB.apply_files_filter", "pydevd.py:PyDB.in_project_scope", "pydevd.py:PyDB._exclude_by_filter", "pydevd.py:PyDB._clear_caches"])

p("C30", "Client/server path mapping round-trips",
  "A file under a mapped server root (the first one of the table above it) is shown to the client under the corresponding client root with the client's separators, and mapping it back gives the original file provided no earlier client root of the table is above the client name; files whose name no server root begins are unchanged and marked unmapped; with roots written with a final separator on both sides exactly the files below the roots are mapped, and a final separator on one side only makes no difference. After any history of frames shown, files mapped and tables set, files are shown as the table set last says.",
  "every mapping table, every pair of platforms and every file name",
  "All mapping tables.",
  ["pydevd_file_utils.py:setup_client_server_paths", "pydevd_file_utils.py:_map_file_to_server", "pydevd_file_utils.py:_map_file_to_client"])

p("C31", "Source references identify one source for the whole session",
  "While the path mappings are not changed, a nonzero source reference sent for a frame always resolves to the source of that frame (its file, a file the client knows under the same name, or the frame's own code), and frames with different sources never share a number; frames of existing files known to the client under one name always get the same number. References sent after a change of the mappings also resolve rightly, if what was shown before the change was in existing files.",
  "every table of path mappings and every history of frames shown and files mapped after it was set",
  "History property.",
  ["pydevd_file_utils.py:get_client_filename_source_reference", "pydevd_file_utils.py:create_source_reference_for_linecache", "pydevd_file_utils.py:create_source_reference_for_frame_id", "pydevd_file_utils.py:get_server_filename_from_source_reference"])

p("C32", "Source mapping (cells to runtime code) round-trips",
  "For tables without overlapping entries and with one entry per runtime source: the current table of a file is the last one accepted; a table is refused (and changes nothing) exactly when it maps a runtime source that another file maps; a client line in an entry maps to the runtime line and back to the same client file and line; source lines outside every entry are not mapped.",
  "every table of mapping entries, every line, every history of table replacements",
  "All tables and histories.",
  [B + "pydevd_source_mapping.py:SourceMapping", "_pydevd_bundle/pydevd_source_mapping.py:SourceMappingEntry"])

p("C33", "Ids sent to the client translate back to the same internal id",
  "Every thread/frame/variable id sent in a message translates back to the internal id it stands for when the client sends it back (once the translation that created it has finished), different internal ids get different client ids, an id never sent is refused, and translations that do not overlap give an internal id always the same client id.",
  "every interleaving of the threads translating ids",
  "Bijection over all histories.",
  [B + "_debug_adapter/pydevd_base_schema.py:BaseSchema._translate_id_to_dap", B + "_debug_adapter/pydevd_base_schema.py:BaseSchema._translate_id_from_dap"])

p("C34", "Goto and step-in target ids resolve to the location they were issued for",
  "The id handed out for a goto location resolves to exactly that location for the rest of the session, equal locations get the same id and different locations different ids, and unknown ids are refused. The step-in targets listed (when fewer than 15) are exactly the calls not yet executed, in order (of more, if none is in a comprehension, the first 15), and each id steps into the call it was listed for.",
  "every history of goto target requests and every list of calls",
  "Bijection over all histories.",
  [B + "pydevd_process_net_command_json.py:IDMap"])

p("C35", "Values in XML messages survive escaping",
  "Text placed in an XML attribute of a message never contains a character that ends the attribute or starts markup, and unescaping it gives back the text. The element sent for a variable, for output, for a thread or for a frame is a well-formed tag with exactly the intended attributes, and unquoting names and values gives back their text (cut at the length limit); names of letters, digits and _.-~ are sent as they are. File and thread names are escaped before they are quoted, so the client gets them with entities.",
  "every text",
  "All strings.",
  [B + "pydevd_xml.py:make_valid_xml_value", B + "pydevd_xml.py:var_to_xml", B + "pydevd_net_command_factory_xml.py:make_thread_stack_str", B + "pydevd_net_command_factory_xml.py:make_io_message", B + "pydevd_net_command_factory_xml.py:_thread_to_xml"])

p("C36", "Log messages interpolate expressions and keep the rest of the text",
  "A log message of literal text and {expressions} is turned into an expression whose value is the literal text with each expression replaced by its value (blank braces by nothing, whitespace around an expression dropped), provided the text has no percent sign and each expression stands for one value; without expressions the value is the text; a message with unbalanced braces gives a text saying so.",
  "every message with balanced braces, every evaluation result",
  "All messages.",
  [B + "pydevd_utils.py:convert_dap_log_message_to_expression", B + "pydevd_utils.py:_extract_variable_nested_braces", B + "pydevd_utils.py:_extract_expression_list"])

p("C37", "Debugger options round-trip through the command line",
  "Converting any debugger setup to command-line arguments and parsing them yields the same setup; parsing succeeds exactly on lists of valid options followed by the program, leaves exactly the user's program and arguments, and terminates (except with the deprecated --DEBUG, with which it never does).",
  "every setup, every argument list",
  "All setups.",
  [B + "pydevd_command_line_handling.py:setup_to_argv", B + "pydevd_command_line_handling.py:process_command_line"])

p("C38", "Value representations are bounded and exact when short",
  "The text shown for a value ends within bounds given by the limits however large, deep or self-referential the value is, and equals the ordinary representation when the value is within the limits (fewer items than the limit of each level, texts not longer than theirs; the empty set aside). Beyond the limits the first items, or the beginning and end of the text, are shown with dots.",
  "every value: any size, nesting depth, cycles",
  "Unbounded object graphs.",
  [B + "pydevd_safe_repr.py:SafeRepr._repr", B + "pydevd_safe_repr.py:SafeRepr._repr_iter", B + "pydevd_safe_repr.py:SafeRepr._repr_dict", B + "pydevd_safe_repr.py:SafeRepr._repr_str", B + "pydevd_safe_repr.py:SafeRepr._repr_obj"])

p("C39", "Windows argument quoting round-trips",
  "Quoting a list of arguments into a Windows command line and splitting that line with the standard rules gives back the same arguments.",
  "every list of argument strings",
  "All strings over backslashes, quotes and blanks.",
  ["_pydev_bundle/pydev_monkey.py:quote_arg_win32", "_pydev_bundle/pydev_monkey.py:str_to_args_windows"])

p("C40", "Attaching to subprocesses preserves the user's command",
  "When a Python subprocess is launched, the patched command line keeps the interpreter flags before it and the program (file, module or -c) and all its arguments after it unchanged; non-Python, stdin and already-debugged commands are left untouched. A command that goes through the patching more than once (the functions of os call one another) is as if it went through once, except for code given with -c (shown).",
  "every argument list",
  "All argument lists.",
  ["_pydev_bundle/pydev_monkey.py:patch_args", "_pydev_bundle/pydev_monkey.py:is_python"])

p("C41", "File watching reports exactly the differences between scans",
  "After each scan the changes reported are exactly the files added, removed or whose (mtime, size) changed since the previous scan, each once. (Roots are given without a final separator, nested roots are scanned first or nothing is cut by the maximum level, and the tree does not change during a scan.)",
  "every pair of directory trees and every set of watched roots",
  "All trees.",
  ["_pydev_bundle/fsnotify/__init__.py:_PathWatcher._check_dir", "_pydev_bundle/fsnotify/__init__.py:Watcher.iter_changes"])

p("C42", "Expanding a long sequence shows every item exactly once",
  "Fully expanding a list or tuple (initial items, then the 'more' buckets) ends and yields each element exactly once with its right index, and each decimal index label resolves to that element, for positive settings. (A deque with at least as many items as are shown initially cannot be expanded at all.)",
  "every sequence length and every configured chunk sizes",
  "All lengths; boundary errors at bucket edges.",
  [B + "pydevd_resolver.py:TupleResolver", B + "pydevd_resolver.py:MoreItems", B + "pydevd_resolver.py:MoreItemsRange"])

p("C43", "Byte columns are converted to the right character columns",
  "The byte offset of a character boundary in a line is reported as that character's column.",
  "every line of text and every character boundary",
  "All unicode strings.",
  [B + "pydevd_frame_utils.py:_utf8_byte_offset_to_character_offset"])

p("C44", "Paged stack traces reassemble to the full stack",
  "Requesting the stack in consecutive pages returns, concatenated, exactly the frames of the full stack, each once and in order, and totalFrames is always the full count. Each frame has its name, formatted as asked, with the mark of chained exceptions and of the current frame where they apply.",
  "every stack depth and page size",
  "All depths and page sizes.",
  [B + "pydevd_net_command_factory_json.py:NetCommandFactoryJson.make_get_thread_stack_message"])

p("C45", "Chained exceptions are listed once each and the listing terminates",
  "Following __cause__/__context__ from an exception lists each chained exception at most once, in chain order, and terminates even if the chain is cyclic.",
  "every cause/context graph including cyclic ones",
  "Termination over all graphs.",
  [B + "pydevd_frame_utils.py:create_frames_list_from_traceback", B + "pydevd_frame_utils.py:create_frames_list_from_exception_cause"])

p("C46", "'Some thread is stepping' is exact after every update",
  "After a stepping-state update the debugger believes some thread is stepping exactly when a live tracked thread is stepping (or suspended in its wait loop), for threads registered while they were running and whose objects still exist.",
  "every history of registration, removal and state change",
  "History invariant.",
  [B + "pydevd_additional_thread_info_regular.py:_update_stepping_info", B + "pydevd_additional_thread_info_regular.py:add_additional_info", B + "pydevd_additional_thread_info_regular.py:remove_additional_info", B + "pydevd_additional_thread_info_regular.py:any_thread_stepping"])

p("C47", "With sys.monitoring, cached breakpoint info is never stale",
  "When the cached per-function information is considered current and no command is being processed, the breakpoints it contains are the current breakpoints of that function, for every interleaving of breakpoint changes with tracing, in programs without equal functions in different files.",
  "every interleaving of breakpoint updates and event handlers",
  "Race over arbitrarily many threads.",
  ["_pydevd_sys_monitoring/_pydevd_sys_monitoring.py:_get_func_code_info", "pydevd.py:PyDB.on_breakpoints_changed"])

p("C48", "With sys.monitoring, events are disabled only where they cannot matter",
  "An event handler asks the interpreter to stop reporting a location only if the function is not to be debugged, or, as far as the handler has read the current breakpoints, there is no breakpoint in the function (or for it), no thread is stepping and the thread has not been asked to pause.",
  "every state of breakpoints, filters and stepping",
  "All combinations.",
  ["_pydevd_sys_monitoring/_pydevd_sys_monitoring.py:_line_event", "_pydevd_sys_monitoring/_pydevd_sys_monitoring.py:_internal_line_event", "_pydevd_sys_monitoring/_pydevd_sys_monitoring.py:_start_method_event"])

p("C49", "Each module is announced to the client once",
  "For each source file, at most one 'new module' event is sent in a session, with an id no other module has, whatever threads report it concurrently; every file of a shown frame is announced unless a request failed, and none fails if one thread builds the answers (two that find the same new file at once: the later one fails). No request waits for ever for another.",
  "every interleaving of threads reporting frames",
  "Race between check and registration.",
  [B + "pydevd_net_command_factory_json.py:ModulesManager.track_module"])

p("C50", "Logpoints never stop and conditions gate stops",
  "Hitting a breakpoint with a log message never suspends; hitting one with a condition suspends only if the condition (or hit condition) holds or its evaluation failed with suspension on failure enabled.",
  "every breakpoint configuration and every evaluation outcome",
  "All combinations.",
  ["pydevd.py:PyDB.handle_breakpoint_condition", "_pydevd_sys_monitoring/_pydevd_sys_monitoring.py:_stop_on_breakpoint", B + "pydevd_frame.py:PyDBFrame.trace_dispatch"])

p("C51", "The client's exception options decide exactly what breaks",
  "After a setExceptionBreakpoints request, whatever was configured before, an exception name breaks when raised, when uncaught, or when leaving user code exactly if the request's filters or options ask for that mode for that name; removing one name leaves every other name unchanged.",
  "every previous configuration and every request",
  "All requests and histories.",
  [B + "pydevd_process_net_command_json.py:PyDevJsonCommandProcessor.on_setexceptionbreakpoints_request", "pydevd.py:PyDB.add_break_on_exception", B + "pydevd_api.py:PyDevdAPI.remove_all_exception_breakpoints", B + "pydevd_api.py:PyDevdAPI.remove_python_exception_breakpoint"])

p("C52", "An unhandled exception is shown at the innermost relevant frame",
  "The program stops on an unhandled exception exactly when an 'uncaught' breakpoint matches, it is neither a keyboard interrupt nor an ignored exit, some frame of the traceback is not excluded by the filters, and the breakpoint's condition (if any) holds in the innermost such frame, which is the frame shown.",
  "every traceback, filter configuration and exception",
  "All tracebacks.",
  [B + "pydevd_breakpoints.py:stop_on_unhandled_exception", "pydevd.py:PyDB.exclude_exception_by_filter"])

p("C53", "Dictionaries and sets are shown completely and their items resolve",
  "Expanding a dictionary or set with fewer items than the limit shows every item once, and the label of a shown item resolves to that item, provided no key's text ends with the id of another key; with more items, the first ones up to the limit (one more for a set) are shown and the cut is marked. Changing an item of a set to a value not in the set replaces exactly that item, and the returned name resolves to the new value.",
  "every dictionary, every set and every limit",
  "All contents, including keys with equal texts.",
  [B + "pydevd_resolver.py:DictResolver", B + "pydevd_resolver.py:SetResolver"])

p("C55", "The stack of an exception is its traceback",
  "When the program stops at an exception, the frames listed are those of the traceback from the frame of the stop outward (all of them for unhandled exceptions), innermost first, followed by the callers, each with the line recorded in the traceback.",
  "every traceback, stack and stop frame",
  "All tracebacks, including frames occurring twice.",
  [B + "pydevd_frame_utils.py:create_frames_list_from_traceback", B + "pydevd_net_command_factory_xml.py:NetCommandFactory._iter_visible_frames_info"])

p("C56", "With sys.monitoring, a breakpoint set while the program runs is hit",
  "Once the command that sets a breakpoint has been processed, every thread that executes the line (or calls the function) is stopped there, also in functions that were running when the breakpoint was set; except by resuming a generator suspended meanwhile, in threads unknown to the threading module, and where a handler with outdated breakpoints was interrupted by the command.",
  "every history of commands, calls and lines, every interleaving of the threads' handlers with the processing of commands",
  "Events are switched off and on for all threads at once; races over arbitrarily many threads.",
  ["_pydevd_sys_monitoring/_pydevd_sys_monitoring.py:_line_event", "_pydevd_sys_monitoring/_pydevd_sys_monitoring.py:_start_method_event", "_pydevd_sys_monitoring/_pydevd_sys_monitoring.py:enable_code_tracing", "_pydevd_sys_monitoring/_pydevd_sys_monitoring.py:update_monitor_events", "pydevd.py:PyDB.on_breakpoints_changed", B + "pydevd_api.py:PyDevdAPI.add_breakpoint"])

p("C57", "With sys.monitoring, a thread asked to pause stops at its next line",
  "A thread that has been asked to pause and executes a line of code that is to be debugged is stopped, if it called nothing while the request was processed and all other threads that handle events until then are to pause too (or some thread is stepping).",
  "every history before the request and every interleaving during and after it",
  "Other threads switch events off; races over arbitrarily many threads.",
  ["pydevd.py:PyDB.set_suspend", "_pydevd_sys_monitoring/_pydevd_sys_monitoring.py:_internal_line_event", "_pydevd_sys_monitoring/_pydevd_sys_monitoring.py:enable_code_tracing"])

p("C58", "With sys.monitoring, switching events off never changes where a program stops",
  "For efficiency the debugger tells the interpreter not to report events (starts of functions, lines, returns) where it expects nothing to do, and switches them on again when it stops or is asked to pause. Whatever a single-threaded program does and whatever commands the user gives at each stop, the breakpoints that are reached and the stops (why, where and in which order) are those of a debugger that gets every event; in particular a line or a start of a function that is not filtered out stops for a breakpoint exactly if there is one whose condition holds. Provisos, each shown to be needed: no pause is requested during a step over or step return, and a stop at an exception happens with some breakpoint set or in the mode that stops all threads together.",
  "all configurations, all code objects, all sequences of calls, lines, returns, exceptions and requests to pause, all commands at the stops",
  "whether a location was switched off depends on the whole history of commands and calls before; a test runs one history",
  ["_pydevd_sys_monitoring/_pydevd_sys_monitoring.py:_enable_code_tracing", "_pydevd_sys_monitoring/_pydevd_sys_monitoring.py:_line_event", "_pydevd_sys_monitoring/_pydevd_sys_monitoring.py:_return_event", "_pydevd_sys_monitoring/_pydevd_sys_monitoring.py:_start_method_event", "_pydevd_sys_monitoring/_pydevd_sys_monitoring.py:update_monitor_events", "pydevd.py:PyDB.set_suspend", "pydevd.py:PyDB.set_trace_for_frame_and_parents"])
p("C59", "With sys.monitoring, a step stops at the first place its command names, and nowhere else",
  "After a step into, the thread stops at the first line that runs in code where steps are shown, or on a return to such code (except to the place where the step began); after a step over, at the next line of the frame that was shown however deep the calls in between, or in the caller when it returns, or, if the caller is not shown, at the next line in code that is; after a step return, in the caller when the frame (or the last of its filtered callers) returns; after run, nowhere by a step; after a pause, at the next line that is not filtered out. No step stops elsewhere. Provisos as in C58. Not so if the frame of a step over or step return is left by an exception, or a step return reaches a function marked @DontTrace: the step is then lost for good, which is proved as well.",
  "all configurations, all histories before the step, all sequences of events after it",
  "recursion, deep calls and filters on every caller are unboundedly many; the step state lives across all of them",
  ["_pydevd_sys_monitoring/_pydevd_sys_monitoring.py:_internal_line_event", "_pydevd_sys_monitoring/_pydevd_sys_monitoring.py:_return_event", "_pydevd_sys_monitoring/_pydevd_sys_monitoring.py:_stop_on_return", "_pydevd_sys_monitoring/_pydevd_sys_monitoring.py:_unwind_event", "pydevd.py:PyDB._do_wait_suspend"])

p("C60", "Breakpoints put into the bytecode do not change what a program does",
  "When the debugger rewrites the bytecode of a function so that it asks for breakpoints itself, the rewritten function runs the same instructions of the program, in the same order, on the same values and with the same effects, and returns the same result, whatever the debugger answers; it does nothing else. All instructions and labels are kept with their arguments and, except where the interpreter predicts an instruction from the one before it, with their lines. If the debugger refuses to rewrite, it is because a line is not positive, the code has no instruction with a line, or the code ends in a place that needs a line after it.",
  "every bytecode program, every set of lines, every meaning of the program's instructions, every state and number of steps, every answer of the debugger",
  "Any control flow and any position of a breakpoint; a test runs one function.",
  ["_pydevd_frame_eval/pydevd_modify_bytecode.py:insert_pydevd_breaks", "_pydevd_frame_eval/pydevd_modify_bytecode.py:_HelperBytecodeList", "_pydevd_frame_eval/pydevd_frame_tracing.py:create_pydev_trace_code_wrapper"])
p("C61", "Breakpoints put into the bytecode are met whenever a line is entered",
  "Whenever the program enters a line with a breakpoint - by falling into it, by a jump, in each round of a loop, in an exception handler - the debugger is asked about that line; if it answers that it needs to stop it is told to before the program goes on, and the interpreter then passes to that line from another so that it is announced; it is asked about lines with breakpoints only, and its answer is yes exactly if the line has a breakpoint and the frame is not traced yet. Before Python 3.10 only the first copy of a line in the code is covered: a breakpoint in the second copy of a finally block is missed, which is proved as well.",
  "every bytecode program, every set of lines, every meaning of the instructions, every run",
  "All paths into a line; loops and jumps make them unboundedly many.",
  ["_pydevd_frame_eval/pydevd_modify_bytecode.py:insert_pydevd_breaks", "_pydevd_frame_eval/pydevd_modify_bytecode.py:get_instructions_to_add", "_pydevd_frame_eval/pydevd_frame_tracing.py:_pydev_needs_stop_at_break", "_pydevd_frame_eval/pydevd_frame_tracing.py:_pydev_stop_at_break"])

p("C62", "The code object built from rewritten bytecode is the program that was asked for",
  "When the debugger turns the instructions with breakpoints back into a code object, the interpreter reads from it the same instructions in the same order: each with its operation, its argument however large, its line at every byte of the instruction, and each jump goes to the instruction after its label, also when jumps need prefixes that move other jumps' targets. The table of lines always consists of bytes, however far lines and offsets are apart. It holds before Python 3.10 and for 3.10. Building fails only by raising; a program of up to 127 instructions with small arguments, labels that are there and relative jumps that go forward is always built.",
  "every list of labels and instructions with any arguments, jumps and lines, and every first line, both formats",
  "sizes of jumps and distances of lines interact without bound (an argument that needs a prefix moves every label after it); a test fixes one layout",
  ["_pydevd_frame_eval/vendored/bytecode/concrete.py:ConcreteBytecode.to_code", "_pydevd_frame_eval/vendored/bytecode/concrete.py:_ConvertBytecodeToConcrete", "_pydevd_frame_eval/vendored/bytecode/concrete.py:ConcreteBytecode._assemble_lnotab", "_pydevd_frame_eval/vendored/bytecode/concrete.py:ConcreteBytecode._assemble_linestable", "_pydevd_frame_eval/vendored/bytecode/concrete.py:ConcreteInstr.assemble"])
p("C63", "Reading a function's code loses nothing, and reading and building gives the same program",
  "The program the debugger reads from a code object, before it puts breakpoints in, has exactly the instructions the interpreter reads from it: operation, argument with all its prefixes, line, and for a jump a label right before the instruction it goes to. Reading a code object and building one from what was read gives as many instructions, each with the same operation, argument and line, and each jump going to the instruction with the same number.",
  "every code object (any bytes, any table of lines) that can be read, both formats",
  "any nesting of prefixes and jumps; a test reads a few functions",
  ["_pydevd_frame_eval/vendored/bytecode/concrete.py:ConcreteBytecode.from_code", "_pydevd_frame_eval/vendored/bytecode/concrete.py:ConcreteBytecode.to_bytecode", "_pydevd_frame_eval/vendored/bytecode/concrete.py:ConcreteBytecode._remove_extended_args"])
p("C64", "With the frame evaluator, every frame is run in a way that serves the breakpoints there are",
  "Whatever commands added and removed breakpoints before, whatever was cached in code objects, and however other threads evaluate frames at the same time: if no change of breakpoints is under way when a frame begins or goes on and none is made until the evaluator has decided, then the frame is traced, or runs code that has breaks at every line of the function with a breakpoint, and a function with a breakpoint for its name is traced. A frame that runs a copy of its code is never given other code. Provisos, each shown to be needed: for a frame that runs a copy (a generator that goes on), the file still has an entry for breakpoints - otherwise the evaluator raises an exception in the program - and breakpoints for its name are not looked at.",
  "every function, every history of changes of breakpoints, every interleaving of any number of threads in the evaluator",
  "the decision depends on information cached in earlier calls and on races between commands and frames; a test runs one history",
  ["_pydevd_frame_eval/pydevd_frame_evaluator.template.pyx:get_func_code_info", "_pydevd_frame_eval/pydevd_frame_evaluator.template.pyx:generate_code_with_breakpoints", "_pydevd_frame_eval/pydevd_frame_evaluator.template.pyx:_CacheValue.compute_force_stay_in_untraced_mode", "_pydevd_frame_eval/pydevd_frame_evaluator.template.pyx:get_bytecode_while_frame_eval"])

p("C65", "Every request is answered at most once, with its own number and command, and is not forgotten",
  "Whatever a client of the Debug Adapter Protocol sends and however the threads of the program run: a response carries the number and command of a request that came before; if the client numbers its requests differently, no number is answered twice; each request that came is answered, or waits in exactly one place for a thread of the program (or for threads to resume), or was lost. Requests that need no thread are answered before the next message is read, also by a failure (not authenticated, breakpoints before launch, arguments that can't be read). A request that waits is answered when the thread it is for has gone through its commands, when the queue for any thread is emptied, when threads resume (continue) or when the thread leaves its loop (goto). If requests are correct and for commands the debugger has, threads of gotos exist, code run for a request does not raise past its handler and no second goto comes before the first is done, nothing is lost: when nothing waits, every request was answered exactly once. Each of these provisos is shown to be needed.",
  "every sequence of messages, every interleaving with the threads of the program, every outcome of the code they run",
  "Answers are sent from several threads and kept in four kinds of places; orders of requests and of threads are unboundedly many.",
  [B + "pydevd_process_net_command_json.py:PyDevJsonCommandProcessor.process_net_command_json", B + "pydevd_process_net_command_json.py:PyDevJsonCommandProcessor.on_continue_request", B + "pydevd_process_net_command_json.py:PyDevJsonCommandProcessor.on_goto_request", B + "pydevd_api.py:PyDevdAPI.request_stack", B + "pydevd_comm.py:InternalSetNextStatementThread", B + "pydevd_comm.py:internal_evaluate_expression_json", "pydevd.py:PyDB.process_internal_commands", "pydevd.py:PyDB._do_wait_suspend"])

p("C66", "With sys.monitoring, an exception on its way out is reported where and as often as was asked for",
  "While an exception travels through the frames of a thread, from where it is raised to the frame that handles it or out of the thread: it is reported as raised exactly in the frames it reaches where a 'raised' breakpoint applies, at each time it is raised there; as leaving user code exactly in the frames that it really leaves, that are the user's and whose caller is not, at most once in each, whatever try statements they contain; as unhandled exactly once, if it leaves the outermost frame of the program, was not just reported there as leaving user code and an 'uncaught' breakpoint applies, and never if it is handled. What the thread saw before makes no difference. Asking only for the events the debugger asks for loses nothing. The frame that handles the exception goes on without the extra variable shown in it. Provisos for 'unhandled', each shown to be needed: no frame of the program looks (by file and function name) like one that starts programs; the same exception object was not remembered with another outermost frame; if both reports apply to the outermost frame, the frames below it are the debugger's own.",
  "every stack of frames, every position of the handler, every re-raise in between, every set of exception breakpoints and filters, every earlier history of the thread",
  "stack shapes, places of handlers and combinations of filters are unboundedly many, and the handlers keep state between events",
  ["_pydevd_sys_monitoring/_pydevd_sys_monitoring.py:_unwind_event", "_pydevd_sys_monitoring/_pydevd_sys_monitoring.py:_raise_event", "_pydevd_sys_monitoring/_pydevd_sys_monitoring.py:_get_unhandled_exception_frame", "_pydevd_sys_monitoring/_pydevd_sys_monitoring.py:update_monitor_events", B + "pydevd_frame.py:should_stop_on_exception", B + "pydevd_frame.py:handle_exception", B + "pydevd_breakpoints.py:stop_on_unhandled_exception"])
p("C67", "Lines marked to ignore exceptions are honoured as the file is now",
  "After any history of edits, exceptions, commands of the client and other uses of Python's source cache: an exception for which the program would stop is passed over exactly when the feature is on and the line where the exception is now, or the line where it was raised, is marked, either by the client or by a comment with the tag in the file as it is at that moment. A command adds the lines in files that exist to those sent before, or replaces them if it says so, up to its first malformed entry; nothing else changes them. Provisos: the files exist, and an edited file never gets the size and time of an earlier version again (shown to be needed).",
  "every history of edits, exceptions, commands and uses of linecache; every text of a line; several names for one file",
  "staleness of two caches depends on orders of edits and queries",
  [B + "pydevd_frame.py:handle_exception", B + "pydevd_process_net_command.py:cmd_ignore_thrown_exception_at"])

p("C54", "The locks of the debugger never end in a deadlock",
  "However many threads there are, whatever entry points of the debugger they call (trace callbacks, requests, internal commands, timeouts, settrace, dispose, prints to redirected streams) and however they are interleaved, there is never a set of threads each of which waits for a lock that one of them holds; no thread waits for a lock it holds itself; every waiting thread waits, directly or through others, for a thread which can go on; two threads never hold the same lock, and all locks are free once every thread has left the debugger. Proviso: messages for the client are not logged (trace level 0), or the log goes to a stream which does not come back to the debugger and its file can be opened; without that a deadlock is reachable (proved both ways). Code of the user run with a lock held is taken to print at most; waiting for things other than locks is not covered.",
  "all numbers of threads, all call sequences and interleavings of the functions which take the debugger's locks, all settings of the log",
  "A deadlock needs one interleaving out of all of them and leaves nothing to assert about; a test which runs threads for a while shows only that those runs ended.",
  ["pydevd.py:PyDB.process_internal_commands", "pydevd.py:PyDB.set_suspend", "pydevd.py:AbstractSingleNotificationBehavior", "pydevd.py:_locked_settrace", "pydevd.py:PyDB.dispose_and_kill_all_pydevd_threads", B+"pydevd_timeout.py:_TimeoutThread", B+"pydevd_io.py:IORedirector.write", B+"pydevd_net_command.py:NetCommand._show_debug_info", B+"pydevd_vars.py:_run_with_unblock_threads", "_pydev_bundle/pydev_log.py:initialize_debug_stream"])

p("C68", "A suspended thread hears of every command",
  "Commands posted to a suspended thread are done one at a time in the order they were posted, none lost and none twice. A command with n others before it is done before the thread's wait has run into its timeout more than n + 1 times, even if the thread's event is never set; the first command is done without any timeout if the event was set after it was queued. A thread told to run leaves its wait, and no other thread does; it leaves after at most one timeout, and at once if its own event is set after its state was changed. After each update of the bookkeeping exactly those registered threads count as stepping that step and are not known to have ended; a new thread counts at once, a removed one no more. An event stays set until its own thread has waited for it. If the resumed thread is the only one registered its event is set. (Otherwise the event set is that of whichever thread a loop over a set came to last: a witness shows another thread woken instead; another shows none woken.)",
  "all numbers of commands and threads, all interleavings of the poster and the waiting thread, all orders in which Python goes through the sets",
  "Needs every interleaving of a poster and a waiting thread and every iteration order of a set of threads.",
  ["pydevd.py: _do_wait_suspend, post_internal_command", B+"pydevd_additional_thread_info_regular.py: _update_stepping_info, _get_related_thread, _is_stepping, any_thread_stepping"])

p("C69", "Code evaluated in a frame sees and changes the frame's variables",
  "Whatever code is evaluated in a frame: each name it uses, at every depth, is the frame's local variable, or else the global, or else the builtin; only `globals` is added where the program has none. When it is statements, or an expression which did not raise, then afterwards each local variable of a function is bound to what the code left under its name; other names the code bound are kept for later evaluations in the frame; at module level every global the code rebound or deleted is so, and all others are as the functions it called left them. In a function the globals are not written by the debugger. Code that only reads leaves the frame unchanged. (Provisos, with witnesses: code with a top-level await sees the debugger's own globals; an assignment expression run as a statement is lost; deleting a local has no effect up to Python 3.12 and binds None from 3.13; a global assigned in a function does not change; a global changed by a called function is read as it was before.)",
  "all frames (module, function, class body), all names, all code: any function of the namespace and the frame; three generations of CPython",
  "The code evaluated and the frame are arbitrary; the write-back compares two arbitrary namespaces.",
  [B+"pydevd_vars.py: evaluate_expression, eval_in_context, _EvalAwaitInNewEventLoop", B+"pydevd_save_locals.py: update_globals_and_locals, save_locals"])
p("C70", "An evaluate request runs its code at most once",
  "The code of an evaluate request is run at most once, in every context; statements are run in the repl only, and elsewhere leave the frame as it was. The answer for an expression is its value (nothing is shown in the repl for None); for one which raises it is a failure in hover, watch and repl, and in other contexts the exception shown as the value. Statements in the repl are answered with success exactly if they did not raise. (Witness: if the frame is gone when the request is handled, the answer is success with None.)",
  "all code (any effect, any outcome), all frames, all contexts",
  "Code and its effects are arbitrary; running it twice shows only through side effects.",
  [B+"pydevd_comm.py: internal_evaluate_expression_json", B+"pydevd_vars.py: evaluate_expression, eval_in_context"])
p("C71", "Setting a variable sets it to the value given",
  "A setVariable request for a local name runs the expression once and leaves the variable, and answers, its value; all other variables are as the expression left them (up to Python 3.12; from 3.13 if the expression has no side effects, since it is run twice). In the globals scope an existing global is set with one evaluation, and a name which is not there is neither created nor the expression run. An expression which raises sets nothing. A setExpression request for a local variable leaves it, and answers, the value. (Witnesses: from 3.13 x = next(it) takes two values; a raising expression is answered with success and the old value; a local whose name begins with 'Globals' cannot be set; setExpression of a global while in a function answers the new value and leaves the global.)",
  "all frames, names and expressions (any effect on the frame, any outcome)",
  "Expressions with side effects, arbitrary frames and names.",
  [B+"pydevd_vars.py: change_attr_expression", B+"pydevd_suspended_frames.py: _FrameVariable.change_variable", B+"pydevd_comm.py: internal_change_variable_json, internal_set_expression_json"])
p("C72", "Code which is indented as a whole is evaluated as if it were not",
  "Before code is compiled, either nothing is changed, or every line loses the same number of characters at its front, all whitespace: as many as the first line which is not blank begins with. That happens whenever every other line begins with as many or is blank. Lines which are not blank keep their text and their indentation against each other; doing it again changes nothing. (Witness: lines of a quoted text are changed too.)",
  "all texts, all notions of whitespace",
  "Arbitrary many lines with arbitrary indentation.",
  [B+"pydevd_vars.py: _expression_to_evaluate"])
p("C73", "Private attributes can be read in expressions",
  "If an expression made of a name and attributes denotes an object in the program's own methods, where Python renames private attributes after the class, then the debugger's attempt after a failed evaluation finds that object, for chains of any length, provided that no class involved has a name beginning with an underscore, that each private attribute belongs to the object's own class and that no attribute has a literal private name. (Witnesses: a class whose name begins with an underscore; an attribute of a base class.)",
  "all object graphs, all chains of attributes",
  "Chains of any length over arbitrary objects and class names.",
  [B+"pydevd_vars.py: eval_in_context"])

p("C74", "Output reaches the program's stream and the client once, and the streams are put back",
  "However evaluations in the repl and tests whose output is caught are nested, and whether they end by exceptions or not: every text the program writes reaches its own stream once and in order; the client gets every non-empty text written while output goes to it, once and in order; a test's buffer gets exactly what is written in the test; and afterwards the stream, the stack of redirections and the redirection to the client are what they were. A stream the program itself puts in place during an evaluation stays. (Witnesses: if output begins to go to the client while a test's output is caught, the end of the test takes that redirection away for good; a text written while another thread takes a buffer's contents can be lost; if no write is interrupted by a read, none is.)",
  "all programs of writes, sequences, exceptions, evaluations and tests, nested to any depth; all states of the streams",
  "Nesting to any depth, with exceptions at any point.",
  [B+"pydevd_io.py: IORedirector, start_redirect, end_redirect, redirect_stream_to_pydb_io_messages, stop_redirect_stream_to_pydb_io_messages, redirect_stream_to_pydb_io_messages_context, IOBuf"])

p("C75", "The test runner runs the tests asked for",
  "The tests the runner collects are exactly those the options ask for, in the order of the modules, classes and methods: with files and their tests the methods named for the file, with --tests the test methods of the classes named and the methods named, else all test methods; less those an exclude pattern matches, and those no include pattern matches if there are such. No test an option excludes is ever run, and filtering leaves no empty suite. Proviso for the first part: no class defines runTest. (Witnesses: a class which defines runTest is run although only other tests of its file were asked for; a named method which is not a test method is not run if its class is named too.)",
  "all options, patterns and ways to match them, all modules, classes and methods",
  "The space of combinations of options and modules is unbounded, and nested suites are filtered recursively.",
  ["_pydev_runfiles/pydev_runfiles.py: PydevTestRunner.find_tests_from_modules, GetTestCaseNames, filter_tests, _decorate_test_suite, iter_tests"])
p("C76", "Run in several processes, each test is run once",
  "When tests are run in several processes, then however these are scheduled and whether or not some die: no test is run twice, and none is run which was not collected; if all end normally, every test was run once; if some but not all die, the tests not run are those of the batches the dead ones held; split by modules, all tests of a file are run by one process. The run always comes to an end. No more processes are started than asked for or of use, and with fewer than two, or under a debugger, the tests are left to one process. Provisos: the files are different and have no | in their names, each test class has a name of its own in its module, and no class defines runTest. (Witnesses: a class bound to two names makes its tests run four times; the tests of a file with | in its name are silently not run.)",
  "all sets of modules and tests, all numbers of jobs, both ways to split, all schedules, all points at which processes die",
  "All interleavings of any number of clients, with deaths at any point.",
  ["_pydev_runfiles/pydev_runfiles_parallel.py: execute_tests_in_parallel, flatten_test_suite, CommunicationThread.GetTestsToRun", "_pydev_runfiles/pydev_runfiles_parallel_client.py: run_client"])
p("C77", "Notifications about tests are sent in order, none left behind",
  "However the thread which sends notifications is scheduled against those which make them: what it has sent is at any time, in order and without repetition, a first part of what was to be told; when it has ended, all that was put before the request to end was sent; and if no call failed the client got exactly that.",
  "all interleavings of putting notifications, taking them, sending batches of any size, and failing calls",
  "All interleavings, all sizes of batches.",
  ["_pydev_runfiles/pydev_runfiles_xml_rpc.py: ServerFacade, ServerComm.run", "_pydev_runfiles/pydev_runfiles_parallel_client.py: ServerComm.run"])
p("C78", "Each test is told to start once and to end once, with the right result",
  "For every run of tests the client is told of each test once that it starts and once how it ended: error if there was an error in it, else fail if there was a failure, with the texts of all of them, else ok, or skip if unittest says it was skipped; before the end, of each subtest which failed; and of each failed set-up of a class or module once; all in the order of the run. (Witnesses: a test of which a subtest failed is itself told to be ok; a test which failed and was skipped in tearDown is told as skipped; an error told outside a test is lost, except before the first test.)",
  "all runs of tests, with any errors, failures, subtests and failed set-ups",
  "All sequences of events in runs of any length.",
  ["_pydev_runfiles/pydev_runfiles_unittest.py: PydevTestResult"])

p("C79", "Reloading a module updates what corresponds, in place, and nothing else",
  "When the debugger reloads a module whose file was edited: no name of the module is removed or bound to something else, and names it did not have are bound to what the file gave; every function which corresponds to a new one (by name in the module, or as an attribute or method of classes which correspond, at any depth) is still the same object with the same globals and has the new one's docstring, its defaults, and code which does the same as the new one's (provided both take the same number of variables from outside); every such class keeps its attributes and gets the new one's others; every other object of the program stays as it was; a change is reported exactly if a name was added or a function got code which does something else; and if running the file raises, nothing is changed. Provided each old object corresponds to one new object, no object is both old and new, and the nesting is less deep than the limit on recursion.",
  "all modules, all heaps of functions, classes and methods with any sharing and nesting, all results of running the file",
  "The objects form an arbitrary graph which is walked while it is changed.",
  [B+"pydevd_reload.py: xreload, Reload.apply, Reload._update, Reload._update_function, Reload._update_class, Reload._update_method, Reload._update_classmethod, Reload._update_staticmethod, code_objects_equal"])

p("C80", "@DontTrace skips the functions it is put on",
  "With filtering by @DontTrace on, a function is skipped exactly if its first line (that of its first decorator if it has any), or the line before, has a comment with the tag or has only decorator lines between it and such a line; provided no such comment is on the last line of the file or followed by decorator lines only, in which case the question fails. Until code is reloaded, all answers about a file go by the lines it had when it was first asked about, whatever else is asked and however files are edited; after that by those it has then.",
  "all files, all functions, all histories of questions, edits and reloads",
  "Files of any length and content, all histories.",
  [B+"pydevd_dont_trace.py: default_should_trace_hook, clear_trace_filter_cache"])

p("C81", "The console of a frame runs what is typed, once, and gives the streams back",
  "For every history of lines sent to the debug console for any frames of any threads: what was typed is cut into blocks, each of lines for one frame which were added as long as the source was not complete; what was run is exactly the complete blocks, in order, each once and in its frame; a block is left incomplete only at the end or because a line for another frame followed (provided no code run exits the program). The reply says that more is needed exactly if the source is not complete, and shows the lines which are not blank written to standard output, then those written to standard error (provided texts are written in whole lines), and first, if the line before was for another frame, where the frame is. After every command whose output is caught, sys.stdout, sys.stderr and sys.stdin are what they were, whatever the command did to them and however it ended.",
  "all histories of commands, all programs, all ways to compile them, all effects and outcomes of running them",
  "All histories, with arbitrary code run at each step.",
  [B+"pydevd_console.py: execute_console_command, get_interactive_console, DebugConsole.push, DebugConsole.runcode, ConsoleMessage.add_console_message", B+"pydevconsole_code.py: InteractiveConsole.push, InteractiveInterpreter.runsource", "_pydev_bundle/pydev_console_utils.py: BaseInterpreterInterface.add_exec"])

p("C82", "Stepping into a chosen call stops in that call",
  "For every code object, any nesting of code objects in it and any instruction the frame is at (Python 3.11 and later): the targets offered for a step-in are made from exactly the calls of the frame's code with lines in the range asked for, in the order of the code; to each are attached the calls of the code objects loaded in it which lie inside it and inside no call before it; no two have the same name and number; and offered, in order with ids by place, are the first fifteen (all, if fewer) of those calls not passed yet, or for those with attached calls these. Choosing a target, the step stops at the first line of a function which the frame called by that instruction, or when the frame ends, and at nothing else, however many other calls come before: provided all functions the frame calls meanwhile are called by listed instructions, and for a call in another code object provided the attached calls are of one code object and nothing else the frame calls calls functions. If all lines are in the range (as always with the DAP) listing never fails. (Witnesses where the provisos fail: an operator or property after a builtin stops the step there; with two lambdas in one call a step into one stops in the other; a range which cuts a call fails the request; more than fifteen targets can be offered; a call passed in an earlier round of a loop is not offered.)",
  "all code objects with any calls and nested code, all line ranges and instructions, all sequences of line and return events",
  "All nestings of code and all event sequences.",
  [B+"pydevd_bytecode_utils_py311.py: _is_inside, _get_smart_step_into_targets, calculate_smart_step_into_variants", B+"pydevd_bytecode_utils.py: Variant, _convert_target_to_variant, get_smart_step_into_variant_from_frame_offset", B+"pydevd_comm.py: internal_get_step_in_targets_json, internal_smart_step_into", B+"pydevd_frame.py: trace_dispatch", B+"pydevd_process_net_command_json.py: on_stepin_request"])

p("C83", "Breakpoints in templates are where the client is told they are",
  "For breakpoints in Django and Jinja2 templates: in every history of requests and renderings, the last thing the client was told about a breakpoint is how it stands. After any requests for a template not rendered yet, at its first rendering each breakpoint (the last one set for its line) is on its line if that is valid, else on the nearest valid line before it, and is reported verified at that line, and rendering that line stops at it; or it is reported invalid, there is no valid line before it or another breakpoint has the nearest, and rendering no line stops at it. Rendering further nodes changes nothing. If its line is valid in every version of the template rendered, in any history of adding, removing and clearing breakpoints and of renderings, rendering the line stops at it, and it is reported verified there. However the template changes between renderings, a stop at a line is at the breakpoint reported there, and never at one reported invalid. (Witnesses where it goes wrong: with the template already rendered, a moved breakpoint is put back on its invalid line by the next breakpoint of the same request, though reported verified; a verified breakpoint whose line becomes invalid stays reported as verified; the first of two breakpoints on a line is never verified; in Django the lines of the outer template are used for one which is included or extended.)",
  "all histories of requests and renderings, all templates and changes of templates",
  "All histories and all templates.",
  ["pydevd_plugins/pydevd_line_validation.py: ValidationInfo", "pydevd_plugins/jinja2_debug.py: add_line_breakpoint, after_breakpoints_consolidated, get_breakpoint", "pydevd_plugins/django_debug.py: add_line_breakpoint, after_breakpoints_consolidated, get_breakpoint", "pydevd.py: PyDB.consolidate_breakpoints", B+"pydevd_api.py: PyDevdAPI.add_breakpoint, PyDevdAPI.remove_breakpoint"])

p("C84", "Requests of the line protocol mean what the client wrote",
  "For every request to set or remove a breakpoint, to set an exception breakpoint, to evaluate an expression, to change a variable or to step into a chosen call, written on one line as the protocol asks (fields separated by tabs; new lines and tabs of conditions and expressions written as tags), what the debugger is asked to do is exactly what the client wrote: same id, file, line, function, condition and expression with all their lines and tabs, hit condition, kind and policy; in the current and in the older forms of the request; and a request with too few fields or without a number where one is needed changes nothing. Provisos: no other field contains a tab; conditions are trimmed, not empty and not the word None, and contain neither '@_' nor '_@' nor a tab followed by the word NEW_LINE_CHAR; expressions to evaluate do not contain '@LINE'.",
  "all requests, all texts of conditions, expressions, names and values",
  "All texts; the tags can be confused with what stands around them.",
  [B+"pydevd_process_net_command.py: _PyDevCommandProcessor.cmd_set_break, cmd_remove_break, cmd_add_exception_break, _cmd_exec_or_evaluate_expression, cmd_change_variable, cmd_smart_step_into", B+"pydevd_vars.py: getVariable, evaluate_expression"])

p("C85", "Completions fit the text before the cursor",
  "For every text, line and column (in the line) in the debug console: the name that is completed is the part behind the last dot of the longest dotted name ending at the cursor; every completion offered replaces exactly that part by a name that starts with it (in any case of letters) and leaves the rest of the line as it is; without a dot exactly the names visible in the frame (local, global, builtin) that start with it are offered, each once; behind a dot exactly the attributes (and __dict__, __class__) of what the name before the dot evaluates to, and none if it cannot be evaluated. Provisos: putting the typed part in lower case keeps its length; something stands before the dot.",
  "all texts, cursors, name spaces and attributes",
  "All texts and cursors.",
  ["_pydev_bundle/_pydev_completer.py: extract_token_and_qualifier, Completer, generate_completions", "_pydev_bundle/_pydev_imports_tipper.py: generate_imports_tip_for_module", B+"pydevd_comm.py: internal_get_completions", B+"pydevd_net_command_factory_json.py: NetCommandFactoryJson.make_get_completions_message", B+"pydevd_process_net_command_json.py: on_completions_request"])

p("C86", "An id names one thread",
  "In every history of creating, ending and collecting threads, of asking for ids in any order, of forking, and of clearing cached ids: two answers of one process with the same (made) id are about the same thread, even if it ended long ago; in the first process all answers about one thread are the same; in a forked process, once the ids it has from its parent were cleared, every later answer about a thread carries the id of that process and all are the same; and the thread found for an id, alone or as part of the id of a frame, is the one it was made for. Proviso: process ids are not used again; the console's fixed id is set aside.",
  "all histories of threads, collections, forks and questions",
  "Addresses are used again when objects are collected; all histories.",
  [B+"pydevd_constants.py: get_thread_id, get_current_thread_id, _get_or_compute_thread_id_with_lock, clear_cached_thread_id, set_thread_id", B+"pydevd_thread_lifecycle.py: pydevd_find_thread_by_id", "pydevd.py: PyDB.process_internal_commands", "_pydev_bundle/pydev_monkey.py: create_fork"])

p("C87", "The settings of a session are the ones its client asked for",
  "In every history of clients that connect and send launch and attach requests with any arguments: each setting (just my code, redirect output, show return values, break on exit zero, django, flask, stop on entry, the client's system) is what the last request of the current client that says something about it says, and the documented default if none does. An argument counts before an entry of the options text, the last entry for a key in that text counts, malformed and unknown entries are skipped, and the list of flags counts only without a text. After a request, stepping over library code, redirection, return values, stop at the entry (launch only) and the ignored codes of SystemExit follow these settings; when break on exit zero was asked for by each client so far, no code is ignored. A request that names ways to show variables gets its own setting for a group if valid, else the one for all groups, else grouped. The path mappings in force are those of the last request that gives any with both sides, a remote side '.' being the directory of the process. Whether stepping resumes all threads, whether children end with the session and how it is ended are decided by the last request alone, with their defaults; whether all threads stop together stays as last said by any client; return values shown before are taken away again once a request turns them off.",
  "all histories of connections and requests, all arguments, options texts and flags",
  "All texts of options and all histories; settings of one client must not decide for the next.",
  [B+"pydevd_json_debug_options.py: DebugOptions, bool_parser, _build_debug_options, _parse_debug_options, _extract_debug_options", B+"pydevd_process_net_command_json.py: PyDevJsonCommandProcessor._set_debug_options, _resolve_remote_root", "pydevd.py: PyDB.set_ignore_system_exit_codes, PyDB.ignore_system_exit_code"])

p("C88", "A path is given with the case of letters it has on the disk",
  "Where the file system does not look at case (Mac and Windows), in every history of questions: a path given back is the path asked about up to the case of letters, however the file system changed in between (on Mac, provided the name is more than separators). While the file system does not change, an answer does not depend on what was asked before, no error reaches the caller, and the answer about a file that is there is its path with the case it has on the disk (provided no directory holds two names that differ only in case). A file that the remembered listings do not lead to is looked up anew, so files made later are found. An error reaches the caller only if a directory may not be listed. Names of no file are left as they are.",
  "all histories of questions, all file systems and changes of them, all names",
  "Depends on what was asked before and on how the file system changed since.",
  ["pydevd_file_utils.py: _resolve_listing, _resolve_listing_parts, _get_path_with_real_case, get_path_with_real_case"])

p("C89", "Properties behave as without the debugger, and are left out of tracing as asked",
  "When the debugger has put its own type in the place of `property` so that accessors can be left out of tracing: in every program that changes a property only under its own name while it has no other name, every attribute has the functions it would have without the debugger; whatever is left out, the same lines run and the same exceptions reach the caller; tracing is on after an access of code that was traced; every line outside of the accessors to be left out is traced, in order; and if those accessors use no properties themselves, no line in them is. The command with four parts sets each kind as it says, whatever was set before.",
  "all declarations of properties, all code of accessors (any nesting, exceptions, handlers), all settings",
  "Ranges over all programs with properties and all nestings of accessors.",
  [B+"pydevd_traceproperty.py: DebugProperty, replace_builtin_property", B+"pydevd_process_net_command.py: cmd_set_property_trace", "pydevd.py: PyDB.enable_tracing, PyDB.disable_tracing"])

p("C90", "Replacing the functions that start threads does not change what the program starts",
  "In every history of patching the thread modules (settrace, start of the debugger), undoing it (stoptrace) and turning the tracing of new threads on and off: a call that Python would accept starts one thread with the function of Python that was there before, with the same handle and daemon; the thread calls the program's function exactly once with the same arguments and ends with the same result or exception. The debugger is told before and after, also when the function raises, or not at all; it is told whenever the patching was not undone, tracing of new threads is on, there is a debugger and the thread is not one of its own. After undoing, every name has its function again. When libraries put in functions of their own at any time, a start still starts one thread with one of the functions ever put in, and the program's function is wrapped at most once. Provisos: handle and daemon of joinable threads are given by name (shown to be needed).",
  "all histories of patching, undoing and switching; all modules, names, calls, functions and outcomes",
  "Histories of patching and undoing are unbounded, and a wrapper around a wrapper or a lost original only shows after particular ones.",
  ["_pydev_bundle/pydev_monkey.py: patch_thread_module, undo_patch_thread_modules, disable_trace_thread_modules, enable_trace_thread_modules, _NewThreadStartupWithTrace, _NewThreadStartupWithoutTrace", "pydevd.py: PyDB.patch_threads, settrace, stoptrace"])

p("C91", "A response says whether the request was carried out",
  "In a session whose requests are correct and of commands the debugger has, a request is refused, by a response at once that says failure, exactly when the client is not authenticated (as the last authorization said) or what it needs is not there: breakpoints while the last of launch, attach and disconnect was not a launch or attach; a frame or variable of no suspended thread; a thread that does not exist; a place to step into that was not offered for the thread; a place to go to that was not given; a value returned by a function to be changed; a source that is not found. Any other response sent at once says success. A continue is answered at once exactly when one notification for all threads is not asked for (as said last), a stack trace when the thread is suspended. Later responses of completions, step-in targets, exception details, evaluations and changes say success exactly when it worked, and the response to a goto when the next statement was set; variables and stack traces always say success.",
  "every history of messages and threads, every request after it",
  "What a request needs depends on the whole history.",
  [B + "pydevd_process_net_command_json.py:PyDevJsonCommandProcessor.process_net_command_json", B + "pydevd_process_net_command_json.py:PyDevJsonCommandProcessor.on_setbreakpoints_request", B + "pydevd_process_net_command_json.py:PyDevJsonCommandProcessor.on_stepin_request", B + "pydevd_process_net_command_json.py:PyDevJsonCommandProcessor.on_goto_request", B + "pydevd_process_net_command_json.py:PyDevJsonCommandProcessor.on_disconnect_request", B + "pydevd_comm.py:internal_evaluate_expression_json"])

p("C92","The stack size of code with breakpoints is enough",
  "When the debugger puts breakpoints into the code of a function, the stack size it writes into the new code object is enough for every run: whichever way the conditions go, whatever raises and however the program's loops, handlers and the inserted checks follow each other, there are never more values on the stack than that (or than the code begins with). Proviso: the original code is as compilers make it, so that no way to a place arrives with more values than the place is compiled for - in particular no loop leaves more on the stack than it found; without it a size is computed that is not enough.",
  "every function's code, every set of breakpoint lines, both variants of the insertion, every run of the code (every outcome of every condition, every instruction raising)",
  "Too small a size corrupts memory instead of failing a test; which runs a test takes depends on the program's conditions and exceptions, and loops make the number of runs unbounded.",
  ["_pydevd_frame_eval/vendored/bytecode/cfg.py: _compute_stack_size, ControlFlowGraph.compute_stacksize, from_bytecode","_pydevd_frame_eval/vendored/bytecode/instr.py: pre_and_post_stack_effect, is_final","_pydevd_frame_eval/pydevd_modify_bytecode.py: insert_pydevd_breaks"])

p("C93","Which return values a step shows",
  "With the option to show return values, a step records for the client exactly the values it is about. Step over: those of the calls that the stepped function makes itself, and its own when it returns, and no others. Step into: all (or, for the command that keeps to the user's code, those that go to the user's code). Step return: that of the function that is left. This holds whatever else runs in between, with tracing and with sys.monitoring, and whatever events the debugger has switched off; nothing is recorded with the option off or while the program runs freely. Of several calls of one function the last one's value is shown. Provisos: not for code that is part of the debugger, generators or coroutines; with tracing, the proviso for the function's own value during a step over in the user's code is that its caller is the user's code; with sys.monitoring a step return also records values of other functions it happens to be told of.",
  "every program, every sequence of calls, lines, returns, exceptions and client commands, every set of breakpoints, filters and cached decisions",
  "Which returns are reported at all depends on what earlier events, steps and stops have switched on and off for each code object; a test fixes one such history.",
  [B+"pydevd_frame.py: PyDBFrame.trace_dispatch, _show_return_values","_pydevd_sys_monitoring/_pydevd_sys_monitoring.py: _return_event, _show_return_values, _enable_step_tracing"])

p("C94","Terminating with children leaves no child running",
  "When the debugger is asked to terminate the process together with its children (Linux, macOS), and it ends because it finds nothing more to kill, then every process that descended from the debugged one when its children were last looked for was dead already at that moment: children, their children and so on, including those forked while the debugger was at work, whatever the processes do meanwhile. It gives up earlier only when the debugged process itself has gone on forking, at least 49 times. Nothing but descendants is killed or stopped. On Windows only children are given to taskkill, until none is left. Provisos: a process that ends on its own has no living children then (others are no longer found as descendants); process numbers are not used again meanwhile; kill and pgrep work.",
  "every tree of processes, every interleaving of the termination with forks, exits and waits",
  "Which processes are missed depends on when they are forked relative to the listing; a test cannot arrange all moments.",
  [B+"pydevd_api.py: PyDevdAPI._terminate_child_processes_linux_and_mac, _terminate_child_processes_windows, terminate_process"])

p("C95","A process to be spared is spared",
  "A child process the program has named with add_dont_terminate_child_pid(pid) is not stopped or killed when the debugger terminates the process together with its children.",
  "every set of processes to spare, every tree of processes, every interleaving",
  "That a process survives has to hold for every set, tree and moment.",
  ["pydevd.py: add_dont_terminate_child_pid, PyDB.dont_terminate_child_pids", B+"pydevd_api.py: PyDevdAPI._terminate_child_processes_linux_and_mac, _terminate_child_processes_windows"])

p("C96","The details of an exception tell the whole story",
  "When a thread has stopped for an exception, exceptionInfo names its type and text, and the trace lists every exception of the chain exactly once, what an exception came from before it and with the right relation between them, each with its type, its text and those of its frames that the filters show: file and line as the client knows them, function, and the source text of the statement. With a limit on the number of frames, the frames nearest to the place where the exception was raised are listed.",
  "every chain of exceptions (also cyclic), every stack, filter, mapping and limit",
  "Chains, stacks and filters are unbounded; which frames are left out depends on all of them together.",
  [B+"pydevd_comm.py: build_exception_info_response", B+"pydevd_frame_utils.py: create_frames_list_from_traceback, create_frames_list_from_exception_cause"])

p("C97", "A source made up for a frame shows every instruction on its own line",
  "When the client asks for the source of a frame whose file cannot be read, the debugger gives the cached lines as they are or, without any, a text made from the bytecode. For code as compilers give it (no empty tuple built right after a load, lines counted from 1, a code object followed by the making of its function), that text is always given, and its row L has only punctuation, keywords and names or constants of instructions that are on line L; a row without instructions is empty. Every instruction that is not shown as punctuation or keyword has its argument on its row, including those of nested functions and classes. So the line at which the debugger says it stopped is the row to look at.",
  "every code object with any nesting, any instructions, any line table",
  "the rewriting of calls, attributes and tuples restarts an unbounded number of times over instruction lists of any length, and nested code objects recurse",
  [B + "pydevd_collect_bytecode_info.py: _MsgPart, _Disassembler, code_to_bytecode_representation", B + "pydevd_api.py: get_decompiled_source_from_frame_id"])

p("C98", "Nothing of the program goes on before the client is ready",
  "The first line of a script launched by the debugger runs only after the connection was made and the client sent configurationDone (or run), so after every request it sent before that. A call of settrace, by whichever thread and however many threads call it at once, returns only when the debugger in use is set up as the call which created it asked for (connected, and told to go on by the client), unless connecting had failed before. A debugger is only created when every earlier one was disposed of, and none connects twice. A thread waiting for the client goes on when the client is ready. _enable_attach returns only when the socket is bound; _is_attached answers whether a client sent configurationDone and neither left, was replaced nor began a new session since; _wait_for_attach returns only when that holds, or when it was cancelled. Breakpoints are accepted exactly from connections which sent launch or attach and have not disconnected since. No user code runs, raises or disposes of the debugger before the launch of a script is over, and none ever does if connecting failed. A thread keeps others from starting only while it is inside settrace; a thread whose client is ready returns, with user code going on and the lock free; a first call creates and connects a debugger, a later one returns with the one in use; a failed connection is raised to the caller. _enable_attach raises exactly for a port other than that of the first debugger; stoptrace leaves no debugger in use; a wait for a client that is attached (or was cancelled) returns.",
  "all interleavings of any number of user threads calling settrace, _enable_attach, _wait_for_attach and stoptrace, of clients connecting and sending requests, and of failing connections and sockets",
  "The waiting depends on the schedule of several threads and on what clients send in between; tests try one order.",
  ["pydevd.py: wait_for_ready_to_run, block_until_configuration_done, run, settrace, _locked_settrace, _enable_attach, _wait_for_attach, _is_attached, stoptrace, main, connect, initialize_network, _WaitForConnectionThread", B + "pydevd_process_net_command_json.py: on_configurationdone_request, _handle_launch_or_attach_request, _verify_launch_or_attach_done, on_disconnect_request", B + "pydevd_api.py: run, notify_configuration_done, request_disconnect"])

p("C99", "The expression given for a variable evaluates to it",
  "Where a variable is sent to the client with an expression (evaluateName), that expression can be read in one way only and evaluating it in the frame gives the very value shown, however deep the variable was expanded; where the value shown is the traceback of an attribute that could not be got, evaluating raises. This holds for the variables of a frame (a global, unless a local of the same name hides it), the returned values, and the results of evaluate requests for a name with any attributes, subscripts and calls after it; and below them for attributes whose name can be written, elements of lists and tuples, values of dictionaries under keys made of integers, strings (any characters), None, booleans and tuples of those, and len() where len is the builtin. Each of those gets an expression when its parent has one, unless it is put in a group; nothing below a variable without one gets one. Outside of that (names that cannot be written, keys of other types, attributes only found in __dict__, results of sums, groups of a frame, hidden globals) the code gives expressions that are wrong, as witnesses show.",
  "all objects and their nesting, all keys and texts in them, all choices of grouping and limits, all frames",
  "The texts are put together from names and representations of arbitrary objects; tests evaluate a handful of them.",
  [B + "pydevd_suspended_frames.py: _AbstractVariable._group_entries, _ObjectVariable.get_children_variables, _FrameVariable.get_children_variables, _FramesTracker.obtain_as_variable", B + "pydevd_resolver.py: DefaultResolver.get_contents_debug_adapter_protocol, _does_obj_repr_evaluate_to_obj, DictResolver.get_contents_debug_adapter_protocol, TupleResolver.get_contents_debug_adapter_protocol, SetResolver.get_contents_debug_adapter_protocol"])

p("C100", "What is shown for a value does not depend on the values shown before",
  "The type, its name, whether a value can be expanded and by which resolver, and the text shown for it are the same whichever values were shown before and in whichever contexts: an extension that claims the type comes first, then the first entry of the table of known types the value is an instance of, else its attributes. Whatever happened before, the text is always one of the value itself: from a provider claiming its type, the usual text, or its repr. This needs that values with the same __class__ are instances of the same types, and for the text that no provider of texts fails for values of the type; where one fails, what is shown for other values of the type does depend on the history, as witnesses show.",
  "all sequences of values shown and contexts, all extensions and what they claim, raise and return, all values including those whose class raises, cannot be hashed or has no name",
  "The caches are per type and live as long as the process; a test shows a few values in one order.",
  [B + "pydevd_xml.py: TypeResolveHandler.get_type, TypeResolveHandler._get_type, TypeResolveHandler.str_from_providers, get_variable_details"])

p("C101", "The end of a session loses nothing and happens once",
  "However many threads end the debug session at the same time (stoptrace, a lost connection, the end of the program): at most one exit message is sent to the client; no helper thread of the debugger is asked to end before a moment at which no command is being processed and nothing waits to be sent; every helper thread that ran when the session's end began is asked to end; when a call that waits returns - the first one or a later one - all of them have ended (but for the check-alive thread and threads that end the session themselves) and every message queued before has been sent, in order; the debugger is not the global one afterwards, and another global debugger stays; every call can return without the help of other threads. The end of the program ends the session only when no thread of the program is left, and then the process does not end before those messages are sent. Provisos: no timeout passes and the connection does not break (delivery, waiting); nobody sets the global debugger meanwhile; helper threads have registered themselves; nothing is queued between the two looks of the check-alive thread.",
  "all lists of actions of any number of threads: disposing calls with and without waiting, messages queued, the writer's loop, helper threads starting and ending, threads of the program starting and ending, the check-alive thread, timeouts, broken connections",
  "tests run a few schedules; the properties concern every interleaving of the calls with the writer and with the end of the program",
  ["pydevd.py:PyDB.dispose_and_kill_all_pydevd_threads", "pydevd.py:PyDB.__wait_for_threads_to_finish", "pydevd.py:CheckAliveThread", "pydevd.py:PyDB.has_user_threads_alive", B + "pydevd_daemon_thread.py:PyDBDaemonThread.run", B + "pydevd_comm.py:WriterThread"])

p("C102", "Paused greenlets are shown as threads while their thread is stopped",
  "With paused greenlets shown: at any moment the list of threads has, besides the threads, exactly the paused greenlets (switched away from, not finished, and not switched to since) of the stopped threads. When a thread stops, the client is told of each of its paused greenlets once, as started and stopped, and of no greenlet of another thread; when it goes on, the client is told that they are gone. What the client was told agrees with the list of threads. (False of the code when several threads are stopped and one of them is resumed: then the greenlets of the others vanish.)",
  "all histories of greenlet switches, stops and resumes of any number of threads with any number of greenlets, in which only the greenlet running in a thread can be switched away from and the debugger sees every switch",
  "depends on the interleaving of switches, stops and resumes in several threads; the tests stop one thread with a few greenlets",
  [B+"pydevd_gevent_integration.py: enable_gevent_integration, greenlet_events", B+"pydevd_custom_frames.py: add_custom_frame, update_custom_frame, remove_custom_frame", "pydevd.py: PyDB.do_wait_suspend, PyDB._do_wait_suspend", B+"pydevd_net_command_factory_json.py: make_custom_frame_created_message, make_thread_killed_message, make_list_threads_message"])

p("C103", "An exception that reaches the entry point of a thread is reported as uncaught, once",
  "With the tracing debugger, a thread run from an entry point (a thread of threading, a function started by the low-level functions, the main program run by the debugger): the first exception which reaches the entry point is taken as uncaught, at that moment, exactly once; exceptions caught on the way never are, and neither is any later exception. A thread which has no such entry point (attached to, or started by native code): when its outermost frame is left, the last exception seen in that frame is reported if its try statements let it out - provided that the frame calls nothing or makes a call before an exception is seen in it, that the thread is not stopped in a function called from it, and that it is the first function native code calls in this thread.",
  "all sequences of calls, returns, raised, caught and propagating exceptions and stops in a thread, at any depth, with any functions that cannot be mistaken for the debugger's or threading's own bootstrap functions",
  "depends on the order of the first traced call, the exceptions and the stops; the tests have a fixed set of top-level functions",
  [B+"pydevd_trace_dispatch_regular.py: fix_top_level_trace_and_get_trace_func, trace_dispatch, TopLevelThreadTracerOnlyUnhandledExceptions, TopLevelThreadTracerNoBackFrame", "pydevd.py: PyDB.set_trace_for_frame_and_parents"])

p("C104", "With sys.monitoring on Python 3.12, every visit of a line is considered once",
  "With sys.monitoring on Python 3.12, every visit of a line - coming to it from another line, or a round of a loop within it - is considered for breakpoints and steps exactly once, and nothing else is, whatever events were switched off before. (False of the code for jumps whose offset is where a range of another line ends, such as the one at the end of a while loop, for lines beyond 256 when a line event comes besides the jump event, and for a recursive call made from a one-line loop.)",
  "all sequences of visits of lines and jumps in any number of functions",
  "depends on the layout of the bytecode, on the number of the line and on what was executed just before",
  ["_pydevd_sys_monitoring/_pydevd_sys_monitoring.py: _jump_event, _line_event, FuncCodeInfo.get_line_of_offset"])

p("C105", "Before Python 3.11, the calls offered to step into are those the code makes",
  "Before Python 3.11, each call offered to step into is one the code makes, with its name, line and offset, in the order of evaluation (those of a comprehension inside of it); and if no evaluation branches (and, or, if-else) all calls are offered; otherwise exactly those whose function and arguments are known are. For code made of names, attributes, calls, operators, comparisons, displays, comprehensions and lambdas, without is, in, await, yield, true division and formats of f-strings, with fewer than 256 arguments to a call, and where what is called is not a string, a comparison or the result of a unary operator.",
  "all function bodies made of these statements and expressions, nested to any depth",
  "expressions nest without bound, and a stack kept by the debugger must be in step with the one of the interpreter",
  [B + "pydevd_bytecode_utils.py: _StackInterpreter, _get_smart_step_into_targets"])

p("C106", "The processes a program starts are those it would start without the debugger",
  "With the debugger, os.exec*, os.spawn*, os.posix_spawn and subprocess execute the same file in the same environment as without it, or fail with the same error; the arguments are the ones given, patched once to attach the debugger (for anything but code given with -c, which is patched by each of the functions that call each other), or just the ones given within skip_subprocess_arg_patch (not nested); the client is told before the process is replaced; and putting the functions in place again, in any order, changes nothing. (Functions that only warn lose the exceptions of fork_exec.)",
  "all systems of files and search paths, arguments, environments, orders of putting functions in place and sequences of entering and leaving skip_subprocess_arg_patch",
  "the functions call each other through the module they are replaced in, with search paths of any length",
  ["_pydev_bundle/pydev_monkey.py: create_execl, create_execv, create_execve, create_spawnl, create_spawnv, create_spawnve, create_posix_spawn, create_fork_exec, monkey_patch_module, skip_subprocess_arg_patch"])
p("C107", "A forked child has a session of its own, or none, and no lock is held in it",
  "When a process with the debugger forks, the process and all others go on unchanged, and its client is told of the child unless it is one that subprocess makes for something that is not Python. The child has a connection to the client of its own, with the same access tokens, exactly if the program forked outside of skip_subprocess_arg_patch and there is a port, and else no debugger; no two processes ever use one connection. No lock of the debugger is held in the child (if it goes on as a Python process), whichever threads held it, also in children of children.",
  "all histories of processes, threads, locks made, held and collected, sessions started and stopped, and forks",
  "a fork may come at any moment, while any thread holds any lock",
  ["_pydev_bundle/pydev_monkey.py: create_fork, _on_forked_process", "pydevd.py: settrace_forked, dispatch", B + "pydevd_constants.py: ForkSafeLock, after_fork"])

p("C108","Setting the next statement is answered truthfully, once, and never lets the thread go",
"Asked to make a stopped thread jump to a line (goto, set next statement, run to line), the debugger answers each request at most once and in order; it says it succeeded exactly if the thread was stopped at a line or an exception, in the function named, and the interpreter allows it; then the thread is at the line asked for, and otherwise it is where it was and the answer says why. Nothing else moves a stopped thread. For any number of jumps asked of a stopped thread at any times the client gets, for each in order, either the success, a continued and a stopped event with reason goto at the new line, or the refusal alone; and the thread goes on waiting. If no continue, pause or suspend reaches the thread while a jump is being done, every request is answered. As long as the session goes on no exception of the debugger is raised in the program. An id never told as a goto target is refused at once.",
"every history of requests, steps, continues, pauses, suspensions and stops interleaved with the thread's own steps; every behaviour of the interpreter when the line is set",
"Interleavings of the command queue, the wait loop and other threads' changes of state cannot be enumerated.",
["pydevd.py:PyDB.set_next_statement","pydevd.py:PyDB._do_wait_suspend","pydevd.py:PyDB.do_wait_suspend",B+"pydevd_comm.py:InternalSetNextStatementThread",B+"pydevd_api.py:PyDevdAPI.request_set_next",B+"pydevd_process_net_command_json.py:PyDevJsonCommandProcessor.on_goto_request"])

p("C109","The reason told for a stop is the one it has",
"For every history of a thread the reasons of its stopped events are: breakpoint, function breakpoint or exception when it hit one, whatever step was under way; pause when it was paused or suspended with the others; goto after a jump; entry for the first stop after stopping at the entry was asked for, once; step when a step the client asked for ended, whichever way (into, over, out, smart, in a coroutine, on leaving the frame); breakpoint when it reached the frame given to settrace. Whoever stops the thread last before it is told gives the reason. A thread last told to continue never stops at the end of a step. With monitoring: unless a return is the first event after a pause.",
"every history of steps, continues, gotos, pauses, suspensions by other threads, settrace calls, breakpoint and exception hits, lines and returns, interleaved with the telling",
"The reason is carried by four fields changed by several threads; histories are unbounded.",
[B+"pydevd_thread_lifecycle.py:mark_thread_suspended",B+"pydevd_net_command_factory_json.py:NetCommandFactoryJson.make_thread_suspend_message",B+"pydevd_net_command_factory_json.py:NetCommandFactoryJson.make_thread_suspend_single_notification",B+"pydevd_comm.py:internal_step_in_thread",B+"pydevd_api.py:PyDevdAPI.stop_on_entry","pydevd.py:PyDB.set_suspend","pydevd.py:PyDB._do_wait_suspend"])

p("C110","A slow evaluation lets the other threads go and holds them again at its end",
"With one notification for all threads: when an evaluation takes longer than the configured time, all other threads are let go, the evaluating one stays, and the client is told that the threads continue. When it ends (with a value or an error) after that, all threads are held again, until the client lets them go, and the client is told of a stop. An evaluation which ends before its timeout is noticed lets no thread go and causes no message of continuation; nor does any evaluation when threads are notified of one by one or the timeout is negative. The end never waits for a thread which is held. Not covered: an evaluation which ends while the callback of its timeout is in progress.",
"every interleaving of the evaluation, its timeout, other threads which run, stop and leave their stops, and the client",
"Three kinds of threads share the states of the threads and the notification; a test sees one schedule.",
[B+"pydevd_vars.py:_run_with_unblock_threads",B+"pydevd_thread_lifecycle.py:resume_threads",B+"pydevd_thread_lifecycle.py:suspend_all_threads",B+"pydevd_timeout.py:_OnTimeoutHandle","pydevd.py:PyDB.set_suspend","pydevd.py:AbstractSingleNotificationBehavior"])

p("C111","What is typed in the interactive console is run once, in order and in whole blocks",
"For every history of lines, groups of lines and interrupts sent to the interactive console, and every schedule of its two threads: the answer to each is whether the text since the block began needs more; the text up to the first answer 'no more' is one block; every block is run exactly once, in order, whole, as a single statement exactly if all of it came line by line; a block which was being typed at an interrupt is dropped, blocks already answered are not; each run is followed by exactly one notification of its end. Provided that the compiler raises nothing but syntax, value and overflow errors, and that an interrupt reaches the main thread while it runs something.",
"every history of requests, every interleaving of the server's and the main thread, every compiler",
"The buffer is shared by two threads and interrupts come at any moment; histories are unbounded.",
["_pydev_bundle/pydev_console_utils.py:BaseInterpreterInterface.do_exec_code","_pydev_bundle/pydev_console_utils.py:BaseInterpreterInterface.need_more","_pydev_bundle/pydev_console_utils.py:BaseInterpreterInterface.add_exec","_pydev_bundle/pydev_console_utils.py:BaseInterpreterInterface.interrupt","_pydev_bundle/pydev_console_utils.py:CodeFragment","pydevconsole.py:process_exec_queue","pydevconsole.py:Command"])
p("C112","The client knows whether the program waits for input",
"For every history of reads of the standard input by any number of threads, nested or not, ending with a line or an exception: the messages 'input requested' alternate between started and ended, beginning with started, and the last one says started exactly while a read is in progress; provided that no other thread comes between the change of the counter and its test.",
"every history of beginnings and ends of reads of any number of threads",
"The counter is shared by threads; histories are unbounded.",
["_pydev_bundle/pydev_console_utils.py:DebugConsoleStdIn.notify_input_requested","_pydev_bundle/pydev_console_utils.py:DebugConsoleStdIn.readline"])

p("C113","Setting an element of something shown sets that element",
  "A setVariable request for an attribute, index or key shown below a variable, with a name or key that can be written, assigns the value once, after it was evaluated, to that attribute, index or key of the object that is shown, and nothing else is done; the response fails if the value or the assignment raised, and otherwise, for built-in containers and plain objects, shows under the same name the value that was set. Provisos: the expression of the variable still leads to the object (after a rebinding the other object is changed and the old value answered), numbers are not shown in base 16 (such names are refused, or set and reported as failed) and the new value is not shown in a group (set and reported as failed). In a set the element is exchanged for the new one and the others stay (a frozenset is never answered, and the value is evaluated in the debugger's module). Returned values, len(), names that are not shown and children without an expression are refused and nothing is run.",
  "all programs and their objects, all frames, all variables reachable by expanding, all names, all values including ones that run code or raise, all implementations of __setattr__ and __setitem__",
  "The request goes through a text expression that is put together from names and representations of keys; tests set elements of a few lists and dictionaries, not every path of attributes and keys, nor values that change what is shown",
  [B+"pydevd_suspended_frames.py:_ObjectVariable.change_variable", B+"pydevd_suspended_frames.py:_AbstractVariable.get_child_variable_named", B+"pydevd_resolver.py:SetResolver.change_var_from_name", B+"pydevd_comm.py:internal_change_variable_json", B+"pydevd_process_net_command_json.py:PyDevJsonCommandProcessor.on_setvariable_request"])

p("C114", "With sys.monitoring, the events of a thread are those of that thread",
  "On Python 3.12 and newer, what the debugger keeps for a thread (breakpoint and step state, if it is traced) is kept for that thread's own object, is made once and never moves to another. No event of the debugger's own threads is looked at. An event of a thread of the program, in code entered from a frame from which its thread is known (the bootstrap of threading, the patched thread start, the debugger running the program) or from nowhere (a thread threading does not know), is looked at while the thread lives unless monitoring was stopped in it; after a stop none is until the next start. Nothing is made while a thread still starts. Provisos: the first event seen in a thread is not inside is_alive() of another thread, and the outermost frame is not some other function of threading, pydevd or pydev_monkey; without them threads are confused or ignored.",
  "all stacks of frames, all histories of events, starts and stops in a thread, all values of the locals looked at",
  "when the first event of a thread comes depends on when the debugger attaches; stacks and times are unbounded",
  ["_pydevd_sys_monitoring/_pydevd_sys_monitoring.py:_get_bootstrap_frame", "_pydevd_sys_monitoring/_pydevd_sys_monitoring.py:_create_thread_info", "_pydevd_sys_monitoring/_pydevd_sys_monitoring.py:_get_thread_info", "_pydevd_sys_monitoring/_pydevd_sys_monitoring.py:start_monitoring", "_pydevd_sys_monitoring/_pydevd_sys_monitoring.py:stop_monitoring"])

p("C115", "The program does not see the debugger's threads, and sees all of its own",
  "Where hiding is on and threading.enumerate is one of the known ones, at every moment threading.enumerate() gives exactly the program's threads that were started and have not ended, in order, and threading.active_count() their number, whatever helper threads the debugger made, is making, started or ended; the wait at the end of the process still finds a helper that is to be waited for, and the debugger's own view has all threads. Proviso: no second helper is begun while the first is being made; without it the second can be seen by the program.",
  "all interleavings of threads making helpers, threads starting, becoming active and ending, all numbers of threads",
  "which steps interleave is up to the scheduler; the number of threads is unbounded",
  [B+"pydevd_daemon_thread.py:mark_as_pydevd_daemon_thread", B+"pydevd_daemon_thread.py:_patch_threading_to_hide_pydevd_threads"])

p("C116", "A step in a template stops at the next place of the template",
  "From a stop in a Django template, a step over stops at the next node rendered whose line is known and nowhere before; a step into stops there or in a Python function called to resolve a variable, and a step over out of that function goes on in the template. From a stop in a Jinja2 template, a step over stops at the next line of the same template function (or, when it ends, of the one that encloses it) that is a line of the template; a step into stops at the next line or start of any template function, or in the first Python code called from the template that is not a helper of Jinja2.",
  "all sequences of call, line and return events, frames and states of the thread",
  "The events between two lines of a template are those of any code the template runs; a test has one such sequence.",
  ["pydevd_plugins/jinja2_debug.py:cmd_step_over", "pydevd_plugins/jinja2_debug.py:cmd_step_into", "pydevd_plugins/jinja2_debug.py:_find_jinja2_render_frame", "pydevd_plugins/jinja2_debug.py:stop", "pydevd_plugins/django_debug.py:cmd_step_over", "pydevd_plugins/django_debug.py:cmd_step_into", "pydevd_plugins/django_debug.py:stop"])
p("C117", "The variables of a template frame are shown with the values the template has for them",
  "In a frame of a Django template each name is shown with the value the template would find for it, and no other name is shown. In a frame of a Jinja2 template each variable of the context is shown with its value, each variable the template itself made is shown under its name with its value, and every name shown comes from one of these or from a local of the code of the template.",
  "all contexts (stacks of dictionaries, dictionaries), locals, names and values",
  "Names, values and how dictionaries hide one another are the template's; a test shows a few.",
  ["pydevd_plugins/django_debug.py:DjangoTemplateFrame._collect_context", "pydevd_plugins/jinja2_debug.py:Jinja2TemplateFrame.collect_context", "pydevd_plugins/jinja2_debug.py:Jinja2TemplateFrame._get_real_var_name", "pydevd_plugins/jinja2_debug.py:change_variable", "pydevd_plugins/django_debug.py:change_variable"])

p("C118", "With pytest, the tests asked for are run, and the result of each is told",
  "Of the tests pytest collects in the files given, those run are exactly the ones named (by name, name without parameters, class, or class and name), in order; without names all run. Of each test run its result is told first, with its own name: ok where set-up and call passed, fail where the call failed, error where the set-up failed, skip where it was skipped; more is told only where its end did not pass. The errors told have all errors written and the exception; the output told is the output of the test. Proviso: no path is meant by two of the files with different tests.",
  "all filters, items, functions resolving paths, outcomes of the parts of a test, sections and texts",
  "Names with parameters, classes and links combine freely; outcomes of three parts, marks and sections do too.",
  ["runfiles.py:main", "_pydev_runfiles/pydev_runfiles_pytest2.py:_load_filters", "_pydev_runfiles/pydev_runfiles_pytest2.py:pytest_collection_modifyitems", "_pydev_runfiles/pydev_runfiles_pytest2.py:pytest_runtest_logreport", "_pydev_runfiles/pydev_runfiles_pytest2.py:_get_error_contents_from_report"])

p("C119","Exceptions break as the commands say, after any history of commands",
  "After any sequence of commands that add, remove, replace or clear exception breakpoints, of Python or of templates, an exception asked for is in the table of each kind (handled, unhandled, unhandled by the user's code) it was last asked for, with the settings last given, and one removed, cleared or never asked for is in no table. If an exception is never added again before it was removed, it is in no table of a kind it was not asked for. The exceptions of templates that break are exactly those last asked for, and the flag that has them looked at is on whenever there is one. While the program runs under sys.monitoring the events needed for the breakpoints there are on, unless CMD_SET_PY_EXCEPTION was used in its form that is not JSON.",
  "every sequence of exception breakpoint commands, every set of importable classes, every moment the program is started",
  "the state after a command depends on the whole history of commands; tests give one or two",
  [B+"pydevd_api.py:add_python_exception_breakpoint",B+"pydevd_api.py:remove_all_exception_breakpoints",B+"pydevd_process_net_command.py:cmd_set_py_exception_json","pydevd.py:on_breakpoints_changed","_pydevd_sys_monitoring/_pydevd_sys_monitoring.py:update_monitor_events","pydevd_plugins/django_debug.py:add_exception_breakpoint"])

p("C120","A file has one name throughout a session, and it is that file's",
  "Whatever is looked up, and however the working directory, sys.path, the file system or the option to resolve links change meanwhile, the paths the debugger has for a file name never change once given, and are the same for a compiled file and its source. They are those of where the file was when first used: its absolute path and its real path if the name is absolute or the file exists, or else those of the first directory of sys.path that has it, or else in the library directory; the base name is the last part. While the file system stays as it is, two absolute names have one canonical path exactly if they are of one file (on Linux), and whether a file exists, also one in an archive, is answered rightly. Provisos: build/bdist names of frames; a path is given as it is exactly if what follows the first '.zip' (or else '.egg') in it is the end or a separator.",
  "every sequence of lookups and changes of the world, every file system, every path",
  "caches make the answer depend on all earlier lookups, and the archive search on every possible path; tests look at a few paths in a fixed directory",
  ["pydevd_file_utils.py:_abs_and_canonical_path","pydevd_file_utils.py:_apply_func_and_normalize_case","pydevd_file_utils.py:get_abs_path_real_path_and_base_from_file","pydevd_file_utils.py:get_abs_path_real_path_and_base_from_frame","pydevd_file_utils.py:exists"])

p("C121","A breakpoint in a Django template may be on the lines of its nodes",
  "The lines of a Django template on which a breakpoint is valid are those of the nodes that are rendered as part of it, at any depth, and that are not plain text: no line is valid that is not a node's, and every rendered node's line is (proved where no node has nodes in two of its lists).",
  "every tree of template nodes",
  "templates nest to any depth and nodes may have any lists; tests look at a few templates",
  ["pydevd_plugins/django_debug.py:_DjangoValidationInfo._iternodes","pydevd_plugins/django_debug.py:_DjangoValidationInfo._collect_valid_lines_in_template_uncached"])

p("C122","The completion server answers each request, and the answers can be read",
"A client of the completion server that sends requests in ASCII, each in any number of non-empty pieces, and waits for the answer to one before it sends the next, gets exactly one answer to each, in order, for exactly the text it asked about; an error while completions are looked for is reported as an answer and does not end the server; after a request to end nothing is answered. From an answer the client can read back the file and every text of every suggestion (up to four texts each), provided the name of the file has no parenthesis. The module search path at any time is the paths last asked for, preceded by the directory asked for after them, provided new paths do not begin with the directory asked for last, and paths are not empty and have no '|' or outer white space. (Where these provisos fail the code loses requests, ends or removes a path: witnesses.)",
"all histories of requests, all ways of quoting them and of cutting them into pieces, all results or errors of the functions that find completions",
"tests send each request in one piece and look at a few answers; pieces, quoting and histories are unbounded",
["pycompletionserver.py:CompletionServer.run","pycompletionserver.py:Processor.format_completion_message","pycompletionserver.py:Processor.remove_invalid_chars","pycompletionserver.py:complete_from_dir","pycompletionserver.py:change_python_path"])

p("C123","The command line of the test runner means what it says",
"The test runner's arguments are accepted exactly if they are a line of options, given as --name=value or --name value by their full name or by the beginning of one name only, and files, mixed in any order, with only files after --, and if the values for port, jobs, split_jobs and verbosity can be used. The configuration then has, of each option, the value given last (or its default), the files in order, each split at '|', for each file the tests named for it in the configuration files that exist and in the environment, in order, and, if tests are given, no filters of files or tests. What follows --nose-params or --py-test-params goes unchanged to that framework. (The short options which the usage names are refused: witness.)",
"all argument lists, all contents of configuration files and of the environment variable",
"argument lists have any length and order; tests try a few",
["_pydev_bundle/_pydev_getopt.py:gnu_getopt","_pydev_bundle/_pydev_getopt.py:do_longs","_pydev_bundle/_pydev_getopt.py:long_has_args","_pydev_bundle/_pydev_getopt.py:do_shorts","_pydev_runfiles/pydev_runfiles.py:parse_cmdline","runfiles.py:main"])

p("C124", "The test runner finds the files of tests and imports them by their names",
  "The files of a run of tests are exactly those asked for: the files given with their tests, or else the files given and, at any depth below each directory given, the .py and .pyw files other than __init__, going down only into directories that have an __init__ file; of these, those whose base name matches some pattern to include, if there are any, and no pattern to exclude. Below one directory no file is found twice. A file whose name has one dot is imported by its dotted name from the first entry of sys.path that holds it and from which it can be imported; if there is none an error is notified with the name from the last entry that holds it, provided no entry of sys.path is the beginning of the text of the path of the file without holding the file. What is added to sys.path is the directory of the last file or the last directory given, and nothing if one of them does not exist.",
  "every tree of directories, list of files, pattern, sys.path and set of modules that can be imported",
  "Trees have any depth and shape; the names depend on every entry of sys.path and on their order.",
  ["_pydev_runfiles/pydev_runfiles.py:PydevTestRunner.find_import_files", "_pydev_runfiles/pydev_runfiles.py:PydevTestRunner.find_modules_from_files", "_pydev_runfiles/pydev_runfiles.py:PydevTestRunner.remove_duplicates_keeping_order"])

p("C125", "Each process has its own log, with every enabled message in order",
  "After any history of messages, messages said only once, log_to, temporary log settings and forks, the log file of each process for each target it logged to has exactly the messages that process logged at an enabled level while that was its target, in their order; a message without a target, or whose file cannot be opened, is on the standard error; a message within temporary settings is in their stream. No two processes and no two targets have the same file, and the files of all processes are among those listed for a target that has a directory. When temporary settings end, level, target and stream are as before, whatever was done meanwhile. Provisos: a process does not go back to a target it has left, within temporary settings there is no log_to and no fork, and pids are not used again.",
  "every history of operations of any number of processes, every target name and pid",
  "The lazy opening, the reopening after a fork and the restored settings interact over arbitrary histories; names and pids are unbounded.",
  ["_pydev_bundle/pydev_log.py:log_to", "_pydev_bundle/pydev_log.py:initialize_debug_stream", "_pydev_bundle/pydev_log.py:_compute_filename_with_pid", "_pydev_bundle/pydev_log.py:list_log_files", "_pydev_bundle/pydev_log.py:log_context", "_pydev_bundle/pydev_log.py:error_once", "_pydev_bundle/pydev_monkey.py:_on_forked_process"])

p("C126", "Auto reload watches what the patterns say and reloads the modules of the file",
  "Whatever was asked before, a directory (with its separator) is watched exactly if a pattern to include matches it or no pattern to exclude does, and a file exactly if a pattern to include matches it. After any sequence of setups at most one watcher runs: that of the last setup if it enabled auto reload. A reload is requested for each modified file and for no other change. A request to reload reloads exactly the module with the given name (or, if there is none of that name, with its last part) and the modules whose source file is the given file, each once, and the answer, sent last, says whether there was one. A reload command with a name, or a name and a file, asks for that name and file.",
  "every list of patterns, every sequence of questions and setups, every set of loaded modules (with the same module under several names, with compiled files, with None), every name and file without white space at the ends",
  "tests use the default patterns and one module; caches, repeated setups and modules loaded under several names vary per session",
  ["pydevd.py:PyDB.setup_auto_reload_watcher", B + "pydevd_comm.py:FSNotifyThread._on_run", B + "pydevd_comm.py:internal_reload_code", B + "pydevd_process_net_command.py:_PyDevCommandProcessor.cmd_reload_code"])

p("C127", "Requests to pause, continue and step act on the threads they address",
  "A pause for one thread tells that thread to stop and changes no other one, unless one notification is given for all threads, in which case every thread that can be debugged is told to stop. A pause for all threads tells every thread that can be debugged to stop and changes no thread of the debugger. A continue request sets all the threads of the application free exactly if its answer says so, which is the case for '*' and in the mode with one notification; otherwise it sets free just the thread it addresses. A step request posts the step asked for (the variant that stays in user code exactly if libraries are filtered) for the thread it addresses; when that is done the thread runs with this step, and the other threads are set free if stepping resumes all threads and left alone if not. A request for a thread that does not exist changes nothing. No sequence of requests adds or loses a thread.",
  "every list of threads in every state, every id that addresses one thread, every setting, every sequence of requests",
  "tests have two or three threads; the state each thread is in when the request comes depends on the schedule",
  [B + "pydevd_process_net_command_json.py:PyDevJsonCommandProcessor.on_pause_request", B + "pydevd_process_net_command_json.py:PyDevJsonCommandProcessor.on_continue_request", B + "pydevd_process_net_command_json.py:PyDevJsonCommandProcessor.on_next_request", B + "pydevd_api.py:PyDevdAPI.request_suspend_thread", B + "pydevd_api.py:PyDevdAPI.request_step", B + "pydevd_comm.py:internal_step_in_thread", "pydevd.py:PyDB.set_suspend"])

p("C128", "Running a file in the console reloads the user's modules and leaves the console's namespace",
  "A file run in the interactive console is executed with its name as __file__ and first argument, followed by the words of the arguments given, in the directory given, and is not executed if that cannot be used. If the file ends without an error (and leaves a __file__, and the one from before was not None), __file__ is as before the run, or absent if it was, the arguments are reset, and everything else is what the file left. With the module deleter enabled, when a file begins, after any sequence of runs, exactly those modules are gone that were not loaded when the first run with the deleter enabled began, have a file whose path begins with none of the paths to ignore, and have no part of their name in the list of names to keep of that first run.",
  "every sequence of runs, every behaviour of the files that are run, every set of modules, every argument text, every list of names to keep",
  "what files load and leave behind is arbitrary and accumulates over the runs of a session",
  ["_pydev_bundle/pydev_umd.py:UserModuleDeleter.run", "_pydev_bundle/pydev_umd.py:UserModuleDeleter.is_module_ignored", "_pydev_bundle/pydev_umd.py:runfile"])

p("C129", "A table view shows the block of the array or data frame that was asked for",
  "For each array of one or two dimensions and each data frame, a request for a number of rows and columns from an offset shows exactly the cells of that block, up to 100 rows and 100 columns and within the first 1000 rows and columns; each column of a data frame has its label and the bounds of all its values. (Full statement; it is false of the code for a request for one row of a matrix that is not the last, and for a request beyond the last column of a data frame, so it is proved for the other requests.)",
  "all arrays and data frames of all sizes, all offsets and all numbers of rows and columns",
  "The code chooses among five ways of slicing by the shape of the array and the request; tests ask for the whole of small arrays.",
  [B + "pydevd_vars.py:array_to_xml", B + "pydevd_vars.py:array_to_meta_xml", B + "pydevd_vars.py:dataframe_to_xml", B + "pydevd_vars.py:table_like_struct_to_xml"])

p("C130", "Attaching to a process runs in it the code to attach with the options given",
  "On Linux, options may be given in any order and each has its last value or its default; without a process number there is an error message. If the directories of the debugger and the values of the options have no quotes, backslashes or ends of lines, the shell runs gdb for the process given, with each argument as it was meant, and makes the process run the program that adds the two directories to its path and attaches with the port, host, protocol and mode given. If one of them has a single quote nothing is run.",
  "all lists of options, all values and directories (all characters, of any length), all process numbers, all lists of libraries to scan",
  "The text passes through the shell, gdb and Python, each with its own quoting; tests attach with one host and one path.",
  ["pydevd_attach_to_process/attach_pydevd.py:process_command_line", "pydevd_attach_to_process/attach_pydevd.py:main", "pydevd_attach_to_process/add_code_to_python_process.py:run_python_code_linux"])

p("C131", "Functions registered for a module run once, right after the module is first imported",
  "If a function is registered to be called when a module is imported (as consoles do for matplotlib), and it is registered while the import hook is installed, it is called right after the first successful import of that module, before the import statement returns, exactly once per registration; a failing import calls nothing, no function is lost because of other imports (nested ones, and those made by the functions included), and the hook is removed only when no registered module is left. A registration made after the hook is gone has no effect.",
  "every history of registrations and of import statements, with imports within imports and within the functions, failing or not",
  "the order of imports of a program is open, and nested imports interleave with removal of the hook",
  ["_pydev_bundle/pydev_import_hook.py:ImportHookManager.do_import", "_pydev_bundle/pydev_import_hook.py:ImportHookManager.add_module_name"])

p("C132", "In the line protocol the path of opened rows leads back to what was shown",
  "If the user opens a variable of a frame (local, or global if no local has the name), a global, the value of an expression or an object given by its identity, and then rows below it to any depth (attributes, items of lists, tuples, dictionaries and sets, and the buckets of long sequences), the request made of the scope and the names of these rows is answered with the very value the last row showed. This holds if no name has a tab and the names of a container's attributes do not look like names of its items. A table view of a variable of a frame shows that variable.",
  "every heap of objects, every frame, every path of opened rows of any length, every size limit",
  "paths, nesting and contents of containers are unbounded, and names of attributes and items share one name space",
  [B + "pydevd_vars.py:getVariable", B + "pydevd_vars.py:resolve_compound_variable_fields", B + "pydevd_process_net_command.py:cmd_get_variable", B + "pydevd_process_net_command.py:cmd_get_array", B + "pydevd_resolver.py:DictResolver", B + "pydevd_resolver.py:TupleResolver", B + "pydevd_resolver.py:SetResolver", B + "pydevd_comm.py:InternalGetArray"])

p("C133", "Every extension of a type is used, once",
  "Asking for the extensions of a type returns, every time, one instance of every class that extends the type and is public in a plugin module below the extensions package, in the order of modules and names, leaving out only modules that cannot be imported and classes that cannot be instantiated, in every thread and whatever was asked before.",
  "every set of modules, classes and failures, every history of requests, every schedule of threads",
  "the answer is cached for good by the first request, so one bad schedule decides all later answers",
  [B + "pydevd_extension_utils.py:ExtensionManager.get_extension_classes", B + "pydevd_extension_utils.py:ExtensionManager._load_modules", B + "pydevd_extension_utils.py:ExtensionManager._iter_attr"])

p("C134", "Full values are those of the variables asked for",
  "A request for the full values of rows of the variables view is answered by the values of exactly those rows, in the order asked, cut short only when the time limit is over or the work was cancelled; if one variable cannot be found an error is sent and no values. In a console each value comes with the name of its variable. (Rows whose text contains the separator `__pydev_val__`, or together with it one that begins earlier, or that begins or ends with white space, are excluded.)",
  "every namespace, every list of rows opened to any depth, every moment at which time is over",
  "the rows, their depth and the moment at which the clock runs out are arbitrary",
  [B + "pydevd_process_net_command.py:_PyDevCommandProcessor.cmd_load_full_value", B + "pydevd_comm.py:InternalLoadFullValue.do_it", B + "pydevd_comm.py:AbstractGetValueAsyncThread._on_run", "_pydev_bundle/pydev_console_utils.py:BaseInterpreterInterface.loadFullValue"])
p("C135", "The line of a template node is the line it begins in (Django before 1.9)",
  "With versions of Django that give only the offset of a node, the line at which the debugger says a template is, and compares with breakpoints, is the line that contains this offset, whichever mix of LF, CR LF and CR ends the lines; an offset past the end gives no line. (The text does not end with a lone CR, and the offset is not between CR and LF.)",
  "every text with every mix of line ends and every offset",
  "mixes of line ends at every position are unboundedly many",
  ["pydevd_plugins/django_debug.py:_offset_to_line_number", "pydevd_plugins/django_debug.py:_get_template_line"])
p("C136", "A file that hides a module of the standard library is named, and no import error is lost",
  "The debugger starts exactly if each module of the standard library it needs could be imported and has the attributes it needs. If an attribute is missing the error names the file that was imported instead. If the import failed, the error names the first of the places on the path where such a module is if there is more than one, and otherwise it is the original error.",
  "every path, every set of files, every module, every error",
  "what hides a module is a matter of the user's path and files, which tests cannot enumerate",
  ["_pydev_bundle/_pydev_saved_modules.py:find_in_pythonpath", "_pydev_bundle/_pydev_saved_modules.py:VerifyShadowedImport.__exit__", "_pydev_bundle/_pydev_saved_modules.py:VerifyShadowedImport.check"])

p("C137", "Templates stop exactly at the breakpoints set in them",
  "After any sequence of requests that set, remove or clear breakpoints of Django and Jinja2 templates in any files, a template stops at a line if and only if a breakpoint of its kind was set there and not set anew or removed since. (The breakpoints set in one file are all of one kind.)",
  "every sequence of requests, every number of files and breakpoints of both kinds",
  "the tables are shared by kinds, files and numbers, and an error needs a particular history",
  [B + "pydevd_plugin_utils.py:PluginManager.add_breakpoint", B + "pydevd_plugin_utils.py:PluginManager.get_breakpoints", B + "pydevd_plugin_utils.py:PluginManager.has_line_breaks", B + "pydevd_api.py:PyDevdAPI.add_breakpoint", B + "pydevd_api.py:PyDevdAPI.remove_breakpoint", B + "pydevd_api.py:PyDevdAPI.remove_all_breakpoints", "pydevd.py:PyDB.consolidate_breakpoints", "pydevd_plugins/django_debug.py:add_line_breakpoint", "pydevd_plugins/jinja2_debug.py:add_line_breakpoint"])

p("C138", "The debugger's code in `-c` programs is put right behind the future imports",
  "When a subprocess is started with code on the command line that has imports from `__future__`, the code that starts the debugger is put behind the last of them as Python's parser sees it: everything up to its end stays before, only blanks, semicolons, brackets and newlines may follow it there, and the rest of the code follows unchanged. (The code is ASCII without form feeds and other control characters that only `splitlines` takes for line ends.)",
  "every code, every mix of line ends, every place of the last import",
  "line ends, columns and what follows the import combine in unboundedly many ways",
  ["_pydev_bundle/pydev_monkey.py:_get_offset_from_line_col", "_pydev_bundle/pydev_monkey.py:_separate_future_imports"])

p("C139", "The event loop asked for is activated, once, in the main thread",
  "Only the main thread activates the event loop of a graphical interface while the program is paused, and only once. A known loop is activated by the first pause of the main thread at which activating it does not fail; for an unknown one the function installed is the one its dotted name stands for: attributes from the longest proper part of the name that is a module; if there is none, nothing is installed. With matplotlib, what is activated is those of its modules that are imported at the first pause of the main thread at which one is, each once.",
  "every set of modules and attributes, every dotted name, every history of pauses in every thread",
  "when modules are imported, which thread pauses and where the module ends in a dotted name are all up to the program",
  ["pydevd.py:PyDB._activate_gui_if_needed", "pydevd.py:PyDB.init_gui_support", B + "pydevd_utils.py:import_attr_from_module"])

p("C140", "The debugger connects to the best address, under a time limit that ends with connecting",
  "Connecting to a client uses IPv4 if the host has such an address, else IPv6 if it has such a one, else IPv4, whatever the order of the addresses. It gives a socket exactly if the host is known, a socket can be made and the other side accepts within ten seconds or what `PYDEVD_CONNECT_TIMEOUT` says, whichever options of sockets are available, and there is no limit afterwards. A socket made for a server is returned or closed. The name used for this machine is the same throughout a run: 127.0.0.1 if the first lookup lists it or fails, else localhost. (Setting options fails only because they are not available.)",
  "every list of addresses, every system's options, every limit, every history of lookups",
  "addresses, their order and what systems offer are not those of the machine the tests run on",
  [B + "pydevd_comm.py:start_client", B + "pydevd_comm.py:create_server_socket", "_pydev_bundle/pydev_localhost.py:get_localhost"])

p("C141", "The lines offered for \"set next statement\" are those of the frame's code",
  "Asked for the lines a frame can be moved to, the debugger answers with XML in which a client reads exactly the lines at which instructions of the frame's code begin, in their order, or the current line if Python cannot tell them. The answer is an error exactly if the frame is not found, or looking for it or for its lines raises an exception.",
  "every frame, every list of lines of any length",
  "codes have unboundedly many lines, and instructions without a line come anywhere",
  [B + "pydevd_comm.py:internal_get_next_statement_targets"])

if __name__ == "__main__":
    out = os.path.join(os.path.dirname(os.path.dirname(os.path.abspath(__file__))), "properties.jsonl")
    with open(out, "w") as f:
        for e in P:
            f.write(json.dumps(e) + "\n")
    print(len(P), "properties")
