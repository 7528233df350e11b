# Formal model of PyDev.Debugger in Lean 4 — design

## Layout

* `properties.jsonl` — the properties, in terms of the API (generated by `tools/mkprops.py`, plain data).
* `lean/Verif/<Area>/Model.lean` — functions of the code, branch by branch, each citing file and lines in `/repo`.
* `lean/Verif/<Area>/Spec.lean` — the small independent specification (only when the statement needs vocabulary that is not plain lists and numbers).
* `lean/Verif/<Area>/Lemmas.lean` — helper lemmas.
* `lean/Verif/<Area>/Props.lean` — the property theorems and, beside each, a non-vacuity `example`.
* `MANIFEST.json` — property → theorem names and status.
* `seeded/LOG.jsonl` — wrong-program experiments.

## Modelling conventions

* Python `str` is `List Char`; `bytes` is `List Nat`/`List UInt8` as stated in the file. Python `int` is `Int` or `Nat`.
* A dict is an association list with insertion order when order is observable, else a function `κ → Option ν`.
* Exceptions are values (`Except`, `Option`, or a constructor); no totalised access (`head!`, `getD`) stands for a code path that raises.
* Mutating methods return the new state. Loops are structural recursion or folds.
* External calls (evaluating user expressions, the file system, the clock, `fnmatch` inside one component, `repr` of leaves) are parameters; the theorems hold for every value of the parameter unless a hypothesis is written in the statement.
* Threads are modelled by interleaving of atomic actions; the granularity of each action is stated in the model file.

## Trusted base

* Lean 4.33.0's kernel. Axioms: at most `propext`, `Classical.choice`, `Quot.sound` (the list per theorem is `AXIOMS.md`, generated from Lean's own `#print axioms`). No own axioms, no `sorry`, no `native_decide`, no `bv_decide`.
* The reading of the Python code recorded in the citations. The code is not run.
* Exactly what is modelled, and what each model leaves out, is listed file by file in `COVERAGE.md` (generated from the model files). Every definition cites the lines it models.
* The model of the interpreter where a property needs one (events of `sys.settrace` and `sys.monitoring`, the memory model of CPython threads as interleaving of single reads and writes) is stated at the top of the model that uses it.
* Behaviour of the code that contradicts a property is in `FINDINGS.md`, with the theorem that shows it.
* What is not modelled at all: the CPython interpreter itself, the Cython variants of the same functions, the native libraries, the GUI event-loop hooks, the `pydevd_plugins` template debuggers, attach-to-process injection.

## Plan per property

| id | what is modelled | how it is proved |
|---|---|---|
| C01 | `_read`, `_read_line`, `_on_run` over a list of recv chunks | every run over chunks equals a run over the flattened stream (induction on reads), hence chunk independence |
| C02 | HTTP framing of `NetCommand` + reader | induction on the payload list using C01 |
| C03 | `NetCommand.__init__`, `urllib.parse.quote` safe set, parse + unquote | round-trip by induction on bytes; quoted text has no newline; decimal round-trip |
| C04 | writer thread as a state machine: enqueue / set-kill / loop step | invariant over all schedules |
| C05 | `_next_seq` atomic and split in read/write | uniqueness for the atomic variant; race witness for the split one |
| C06 | `InternalThreadCommandForAnyThread` as interleaving of acquire / check / run | invariant |
| C07 | `process_internal_commands` | permutation/filter law |
| C08 | timeout tracker | invariant over ops; race with different locks as a negation witness |
| C09, C10 | `_Authentication` + both request gates | invariant over request lists |
| C11, C12 | `AbstractSingleNotificationBehavior`, callbacks | trace invariant |
| C13 | `notify_thread_created/not_alive/set_enable` | per-thread trace automaton |
| C14 | `pydevd_thread_lifecycle` | decision theorems over thread lists |
| C15 | `SuspendedFramesManager` | refinement to a map of live trackers |
| C16 | `_group_entries` | permutation and order |
| C17, C18, C19 | breakpoint store in `PyDevdAPI` and JSON handlers | refinement to per-file list; bisect law; id freshness |
| C20 | hit conditions | decision + counting invariant |
| C21 | `get_exception_breakpoint` | fold invariant over a partial order |
| C22 | skip caches of `trace_dispatch` | invariant over histories; race witness |
| C23, C24, C25 | step / exception decision | decision theorems, try/except visitor |
| C26, C27, C28, C29 | filtering | matcher equivalence with a relational spec; sortedness; maxima; cache transparency |
| C30, C31, C32 | path mapping, source references, source mapping | round-trip, history invariants; witnesses of violations |
| C33, C34 | id maps | bijection invariant |
| C35, C36, C37, C39 | escaping, log message, command line, Windows quoting | round-trip; witnesses of violations |
| C38 | `SafeRepr` | length bounds and exactness by induction over an object tree |
| C40 | `patch_args` | shape theorem |
| C41 | fsnotify | diff exactness |
| C42, C44 | paging | coverage |
| C43 | utf-8 offsets | induction |
| C45 | chained exceptions | memo measure |
| C46 | stepping registry | invariant |
| C47, C48, C56, C57 | sys.monitoring: commands, handlers, cached function information, events switched off and on | interleaving invariant with the stages of a command; witnesses for the provisos |
| C58, C59 | stepping with sys.monitoring, one thread: handlers of events, commands, frames traced for a step, events switched off; a second machine gets every event | simulation with an invariant on the events each frame needs; the stops are stated over the program's own frames; lost steps proved for all continuations |
| C60, C61 | insertion of breakpoints into bytecode, the functions it calls, and a stack machine abstract in the program's instructions | simulation between the program and the rewritten program (place in one vs. place in the other), then predicates on traces closed under the macro steps |
| C62, C63 | vendored assembler and disassembler: `EXTENDED_ARG`, jumps settled in passes, both tables of lines; specification is how the interpreter decodes bytes and finds lines | loop invariants of the packing functions, the fixed point of the passes, then by instruction; C63 composes reading with C62 |
| C64 | the frame evaluator's decision with the information cached in code objects, any number of threads in four steps, breakpoint changes in two (change, then `mtime`) | inductive invariant over histories: stamps, snapshots and cached infos are right unless a change is under way |
| C65 | the JSON processor's dispatch and when each handler answers, the queues of internal commands, callbacks on resume, the goto of a thread leaving its wait loop | a conserved count of each request over answers, places of waiting and losses, for every history; progress of each place |
| C66 | the raise and unwind handlers of the sys.monitoring tracer, the walk to the outermost frame with its per-thread memory, handle_exception, on top of the decision functions of C24, C25 and C52; CPython's delivery of events for an exception travelling through a stack | induction over the stack, with the traceback and the thread's memory generalised; the memory holds the outermost frame or nothing for this exception |
| C67 | the check for marked lines in handle_exception with both caches and linecache, the command that sends lines | an invariant over every history: what is cached about the version on disk, once seen, is true of it; versions are never reused |
| C68 | the wait loop of a suspended thread with its queue and event, `_update_stepping_info` with arbitrary iteration orders | invariants over every interleaving, counting timeouts; permutations for set iteration |
| C69 | evaluate_expression with its merged namespace and the write-back into module, function and class frames for three generations of CPython; code is an arbitrary function | pointwise characterisation of the write-back; case analysis; witnesses for the provisos |
| C70 | the evaluate request by context, on top of C69 | case analysis over outcomes, counting runs |
| C71 | change_attr_expression, setVariable, setExpression; expressions are arbitrary functions | case analysis, counting runs; partial from Python 3.13, where the expression is run twice |
| C72 | _expression_to_evaluate over lists of lines and any whitespace predicate | induction over lines and characters |
| C73 | the second attempt of eval_in_context against Python's renaming of private names | induction over the derivation of what an expression denotes |
| C74 | the stack of output redirections, the redirection to the client, IORedirector.write, over nested programs | induction over programs, with how often the current stream passes a text to each sink as invariant |
| C75 | loading tests by names, the filters, nested suites | the flattened result is a filter of the flattened input, by mutual induction; names are split and compared as strings |
| C76 | the batches, the queue, the clients as processes which ask, run and die | counting where each test is, over all schedules; a measure for termination |
| C77 | the queue of notifications and the thread which drains it in batches | invariant: what was taken is what was sent and what is held |
| C78 | PydevTestResult as a machine over the calls unittest makes | induction over the calls of a test, then over the run |
| C79 | `Reload`: heap of functions, classes, methods and other objects; `update` walks old and new objects together with fuel for the recursion limit; `apply` for the module | `Pair` says inductively what corresponds, `updated` what an object should become; induction over fuel with the invariant that each object is as it was or updated, updating again does nothing |
| C80 | `DontTrace`: the scan of a file's lines with its loops up and down over decorators (the loop down runs past the end and raises), the cache, edits and reloads | `Tagged`, `Deco`, `Covered`, `Skip` defined on lines; induction over the lines left to scan with the prefix; cache kept by induction over the history |
| C81 | `Console`: cache of the one console, its buffered lines, `sys` streams and hooks replaced and put back, catching of output, the reply; compiling and running code are arbitrary functions | a cut of what was typed into blocks exists for every history (invariant, by induction adding a command at the end); whole-line writes by `split1_append_sep` |
| C82 | `StepInto`: targets of a code object and those nested in it, variants with call orders (and the exception for a child out of range), the offered list with its limit, the binary search, the stop condition | mutual induction over nested code; numbering of names; binary search invariant; pointwise equality with the specified stop, then lifted to the whole trace function (`StepInto/Trace.lean`) |
| C83 | `Template`: breakpoints of one template file, their verification against the lines of the template, moving, consolidation by id, messages to the client | invariant over the verification loop (who is done stands as specified, the rest untouched), then over histories |
| C84 | `LineReq`: how the text of line-protocol requests is cut and restored (breakpoints in four forms, exception breakpoints in three, evaluation, change of variable, smart step) | the client's writing is the specification; round trip by induction over the text, with the exact text that makes the tags ambiguous excluded |
| C85 | `Complete`: the name before the cursor, the names offered for it and the range each replaces | the run before the cursor is specified as the maximal one and proved unique; the effect of applying a completion is computed on the line |
| C86 | `ThreadIds`: thread objects at addresses that are used again, cached ids, the table that keeps threads alive, forks, the search by id | invariant over all actions of all processes; injectivity of the text of ids |
| C87 | `Options`: `DebugOptions`, the parser of options texts and flags, `_set_debug_options` and the setters it calls, over histories of clients | A dictionary lookup after parsing is the last entry of the text (induction over entries); the flags build such a text; settings by induction over histories from their end |
| C88 | The walk through directory listings with its cache and its second try; Mac and Windows entry points; a file system that changes between questions | Cache invariants over questions: paths right up to case; while the disk does not change, the cache agrees with a walk without one (a lowered path decomposes in one way) |
| C89 | The debugger's property type: objects in a heap changed by getter/setter/deleter; accessors run as trees of lines and calls with tracing switched; the command's parsing | Simulation against immutable properties for programs that change a property under its one name; mutual structural induction over call trees |
| C90 | `patch_thread_module`, `undo_patch_thread_modules`, the switch of tracing, the two startup classes, the argument checks of CPython's `start_new_thread` and `start_joinable_thread`; modules as attribute maps, histories with libraries that assign | invariant over histories (each name has Python's function or one wrapper around it, the saved original is Python's), lemmas on what one wrapper does |
| C91 | the model of C65 (requests, handlers, internal commands) | the state's fields as functions of the history, by induction over the actions; then by cases on the command against a separate list of reasons to refuse |
| C92 | `Verif/StackSize/Model.lean`: the control flow graph made of the code, the walk over its blocks and the numbers of values taken and left by each instruction; the interpreter's `dis.stack_effect` is a parameter; the insertion is the one of `Verif/Bytecode` | the sizes left behind by the walk are closed under the steps of the code: for blocks under way by comparing with the depths of a balanced assignment, by induction on the recursion; then a simulation of flat runs (positions, block stack) by the blocks; insertion keeps code balanced by induction on the code |
| C93 | `Verif/ReturnValues/Model.lean`: the decision of `_return_event` to record a value, over the machine of `Verif/MonStep`, and the dictionary that is filled; for tracing the effect `showReturn` of `Verif/Dispatch` | tracing: an iff by cases on the command, and that no cached decision skips such a return; monitoring: an invariant along all histories that returns of the functions called by the stepped frame are reported, preserved by every operation that switches events on and off, on top of the invariant of C58 |
| C94 | The routine that kills child processes, one action per external command, with a process table that changes between any two actions (forks, exits, waits, reparenting) | Invariant over all executions: every dead process has only dead (or about to be killed) children; listed processes are stopped; induction over descent |
| C95 | The same, with the set of processes to spare as Python values (numbers and texts are never equal) | The choice on Windows by induction over turns; on Linux and macOS equality of runs with and without the set (violation) |
| C96 | `build_exception_info_response` over the lists of frames of `Stack` (C44, C45, C55): name, description, limit, filters, source text, trace as a list of entries | The trace as one part per list by induction over the chain; composition with C45; witnesses for the violations |
| C97 | `_MsgPart`, the whole of `_Disassembler` (lines, lookahead, single instructions, nested code, writing) and the choice between cached lines and a made-up source | invariant over rounds: every instruction left comes from the code, every part is on a line of the code, what must be shown is shown or still owed; weights for the end of the loop; rows of the text by induction on the sorted lines |
| C98 | user threads, readers of connections and waiting sockets as an interleaving system with a history; `settrace` with its lock, the creation, connection and set up of the debugger, the requests which let the program run | an invariant over all actions: who is inside the lock, what is known where a thread is, what the flags say about the history, and a condition on every event given the events before it |
| C99 | Area `EvalName`: the rows the resolvers make for attributes, items, elements and `len()`, the grouping, the texts put together for them from the parent's text, `repr` of keys including escapes, the variables of a frame, returned values and evaluate results. `Spec` has a grammar (names, attributes, subscripts, calls, sums, literals) and its evaluation in a frame. | A reader for the grammar is proved to find every reading the grammar has, which shows that no text has two; `repr` of every readable key is a literal of it (induction over keys and strings); induction over how a variable was reached shows that its text is the expression for its value. |
| C100 | Area `TypeCache`: `get_type` with its two attempts, the cache of resolvers, the providers of texts with their cache, `get_variable_details`. What the program's objects and the extensions answer is a parameter and may be an exception. | Invariant of the caches over any sequence of values shown: what is kept for a type is what a lookup without the cache finds for every value of that type. |
| C101 | `dispose_and_kill_all_pydevd_threads`, `__wait_for_threads_to_finish`, `CheckAliveThread`, the writer's loop and the registration of helper threads as an interleaving of atomic steps (`Dispose.Model`) | invariants of single states (`Lemmas`) and invariants relative to an earlier moment (`Rel`); moments are prefixes of the list of actions |
| C102 | `Greenlets`: the entries of paused greenlets kept at each switch, what a stop tells about them, what the end of a stop takes back, the list of threads | invariant over all possible histories tying the two dictionaries, the stops and the list of threads to the paused greenlets; the client's view of the messages is the list of threads, by induction; partial, with a witness for two stopped threads |
| C103 | `TopLevel`: the stack of a thread with the tracing functions of thread and frames, the search for the entry point, the two top-level tracers, what a stop does to the tracers | by induction over the history with an invariant on the stack: the entry point keeps its tracer and the frames above have tracers which report nothing; for a thread without entry point the outermost tracer holds the exceptions seen (C25 decides) |
| C104 | `Jump`: jump and line events on Python 3.12, the line of an offset, the line to skip, the jump events switched off | by induction over the visits with an invariant on the line to skip and the events switched off; partial, with three witnesses |
| C105 | `StepCalls`: the interpreter of bytecode without values which names the calls (before Python 3.11); the specification has expressions, their calls, and a compiler to bytecode | by mutual induction over expressions: the stack and calls after the bytecode of an expression; witnesses for what the interpreter gets wrong |
| C106 | `Process`: the functions put in place of `os.exec*`, `os.spawn*`, `os.posix_spawn` and `fork_exec`, with the functions of `os` that call each other, and putting them in place | the result is compared with a specification that looks for the first file that can be executed; by induction over the search path, the names and the histories; with `c40_again` for the arguments |
| C107 | `Process/Fork`: processes with threads, fork-safe locks, sessions; what a fork does in the process and in the child | invariants over all histories: every lock is registered, connections are apart |
| C108 | One thread's wait (`do_wait_suspend`, `_do_wait_suspend`, `set_next_statement`) as a machine whose steps interleave with posted commands, continues, pauses, suspensions and the end of the session; the goto request. The interpreter's refusal of a line is a parameter. | Invariants over all histories (what is in the thread's fields came from one request; answers, the jump being done and the queue are what was asked, in order); a separate specification of the exchange, met by a simulation and a decreasing count of work. |
| C109 | The four fields of a thread from which the reason of a stop comes, as changed by steps, continues, pauses, suspensions, settrace, stop on entry, goto and the stops of the tracing, with the mapping of the two notification messages. Not the stops of template plugins. | Simulation by a specification which knows of wishes and causes but of no commands; then statements about hits and steps on histories. |
| C110 | `_run_with_unblock_threads`, with each write of a thread's state and each call of the notification (the model of C11) as one action; the timeout's callback, other threads which stop and leave, and the client interleave. The interrupt of the evaluating thread is not modelled. | Invariants for the three phases (before the timeout, callback, `finally`), induction over histories; the invariant of C11 for what is told. |
| C111 | The interactive console: `do_exec_code`, `need_more`, `interrupt` on the server's thread, `process_exec_queue`, `add_exec` on the main one, each access to the shared fields being one action. Not: GUI hooks, stdin, the compiler's memory of `__future__` imports. | Invariant which relates buffer, queue and log to the blocks of what the client saw, by induction over the interleavings; uniqueness of the blocks. |
| C112 | `DebugConsoleStdIn.notify_input_requested` with any number of threads. | Invariant: the counter is the sum of the reads in progress. |
| C113 | `_ObjectVariable.change_variable`, `get_child_variable_named`, `SetResolver.change_var_from_name` and the setVariable request, over the world of objects, the variables shown and the grammar of C99; `__setattr__`, `__setitem__`, the value and Python's parser (outside the grammar) are any functions | the text of the place parses to an attribute or subscript of an expression whose value is the object shown (invariant of C99), so the assignment is `put` on that object; for built-in assignments the rows afterwards are the rows before with one value replaced, also after grouping, so the response finds it |
| C114 | the thread local of `sys.monitoring`: the frame a thread is known from, its info, start and stop for one thread | invariant over histories relating what is kept to the thread's own object; declarative description of stacks (`Under`) |
| C115 | replacing the functions of `threading`, marking helpers, the registers of `threading` | interleaving model, invariant (where the first maker is) |
| C116 | `TemplateStep`: `cmd_step_over`, `cmd_step_into` and `stop` of both template plugins, event by event | induction over the events up to the stop; the step's frame as an invariant, with the enclosing template functions as an inductive relation |
| C117 | `TemplateVars`: `_collect_context` of Django, `collect_context` and `_get_real_var_name` of Jinja2, the call of `_change_variable` | what is shown is computed for every name by induction over dictionaries and locals; partial: three witnesses for Jinja2, one for changing variables |
| C118 | `Pytest`: the filter of tests (`runfiles.py`, `_load_filters`, `pytest_collection_modifyitems`) and `pytest_runtest_logreport` | what the filter has for a path is traced back to the files given; names characterised by an inductive relation; reports by cases, sections by induction. Partial: output |
| C119 | the API calls and commands that change exception breakpoints, the plugins' tables and flag, `on_breakpoints_changed` and the exception part of `update_monitor_events` | a specification reads the history from its newest command; the tables are compared with it by induction on the history, and an invariant says the events set cover the breakpoints there are |
| C120 | `_abs_and_canonical_path`, `_get_relative_filename_abs_path`, `_apply_func_and_normalize_case`, `exists` and the two cached lookups, in a world that may change at any time | invariant over runs: caches only grow and each entry was computed in some world of the run; the archive search is characterised by the first place of the marker, and what is kept by what follows it |
| C121 | `_iternodes` with the variable its inner loop rebinds, `_collect_valid_lines_in_template_uncached`, on trees of nodes | soundness by induction on fuel; completeness by induction on depth where at most one list of a node has nodes; a witness for the rest |
| C122 | `pycompletionserver.py`: the loop of `run` one `recv` at a time, with decoding, the end marker and `rfind`; every branch of the dispatch; `format_completion_message` with `quote_plus`; `complete_from_dir` and `change_python_path` on `sys.path` (`Verif/ComplServer`). `generate_tip`, `search_definition` and jedi are inputs that may raise. | A specification of requests on the wire (any quoting that reads back), of pieces, of answers read by a client's own parser, and of the path asked for; uniqueness of the end marker, induction on pieces and on the history with an invariant between `sys.path` and what was asked. |
| C123 | `_pydev_getopt.py` whole (`gnu_getopt`, long and short options), `parse_cmdline` of `pydev_runfiles.py` with every option, configuration files and the environment, the split of arguments in `runfiles.py` (`Verif/RunArgs`). | A grammar `Line` of argument lists with the options and files they give; equivalence with `gnu_getopt` by induction on the arguments; every field of the configuration against the last value of its option, by induction on the options; the tests of a file as a filter of what was asked. |
| C124 | the walk over a tree of directories, the patterns, the dotted name of a file, the choices by sys.path, what is added to sys.path | mutual induction over trees and forests against paths that go down by packages; the choices are shown to be the relative names of the entries that hold the file, by induction over names and over sys.path |
| C125 | the settings of the log of each process, opening and reopening its file, messages, log_to, temporary settings, forks; names of log files | simulation of a specification with no streams: a message is said to a target by a process; the names are shown to be injective in target and pid |
| C126 | `setup_auto_reload_watcher` with its two caches, the filter of changes, `internal_reload_code`, `cmd_reload_code`; pattern matching and `normcase` are inputs | answers over any history by an invariant of the cache; induction over setups; induction over `sys.modules` for the set of modules |
| C127 | the pause, continue, next, stepIn and stepOut requests, `request_suspend_thread`, `request_step`, `set_suspend`, `internal_step_in_thread` over the threads of C14 | case analysis per thread on top of the theorems of C14; induction over requests for the last part |
| C128 | `runfile` and the module deleter; what the file does is an arbitrary function of the state | the deleter's state after any runs by induction; the words and the parts of names against inductive specifications |
| C129 | `Tables`: the slicing of arrays and data frames for table views; arrays have one or two dimensions, formats and texts of cells are left out | by cases on the shape and the numbers of rows and columns left; partial, with witnesses for requests for one row or cell of a matrix, for one element and beyond the last column |
| C130 | `AttachPid`: the command line, the code to run and the gdb command; how the shell, gdb and Python read texts is in `AttachPid.Spec` | the words of a command one by one, escapes by induction on the text; witnesses for an unknown argument and for a host with a quote |
| C131 | `add_module_name`, `do_import` with nested imports, removal of the hook | mutual induction over statements: what is seen follows a small transition system of what is waited for; counting of calls |
| C132 | `getVariable` in all its scopes, `cmd_get_variable`, `cmd_get_array`, `resolve` and `get_dictionary` of the resolvers over a heap | every assigned row resolves (per kind of object, on C42 and C53), induction over the path |
| C133 | `ExtensionManager` as steps of threads: loading, look-up, creation and filling of the cache | runs of single calls by induction over modules and attributes; invariant over all schedules once a type is cached; witnesses for the races |
| C134 | the command that loads full values: splitting, the loop over variables, the thread with its clock; the same in the console; paths as in C132 | splitting undoes joining, by induction; each variable by the theorems of C132; the clock is any function; witness for the name |
| C135 | `_offset_to_line_number` | induction over the lines of the text, an inductive specification with three line ends |
| C136 | `find_in_pythonpath`, `VerifyShadowedImport` | the places found equal an independent list of places; case analysis of what leaves the block |
| C137 | `PluginManager` and the tables of breakpoints of both template plugins, for all files | invariant over all histories that ties the tables, the numbers, the active plugins and the flag to the breakpoints that are set |
| C138 | `_get_offset_from_line_col`, `str.splitlines`, with `separateFuture` of `PatchArgs` | induction over the lines as the parser sees them (the specification of C135); columns are bytes |
| C139 | `import_attr_from_module`, `init_gui_support` and `_activate_gui_if_needed` (`GuiLoop`): worlds of modules and attributes, calls by any thread with any modules imported | the loop over dotted names by induction on the length of the module's part, against a specification by the longest importable part; histories divided at the deciding pause |
| C140 | `start_client`, `create_server_socket` and `get_localhost` (`Connect`): what the system answers is a parameter, what is done with sockets is a log | the loop over addresses by induction, against a specification without order; the cache by induction over the calls |
| C141 | `internal_get_next_statement_targets` (`NextTargets`), with the XML as text | a reader of such XML as an inductive specification, its uniqueness by induction, the loop by induction on the lines |
| C49 | modules manager | interleaving invariant; race witness |
| C50 | breakpoint conditions | decision |
| C53 | dictionary and set resolvers | induction over the items; witnesses for equal labels |
| C54 | every lock the debugger creates, and for each function which takes one the locks taken inside it, by file and line; any number of threads | a rank for every lock and a bound for every function, checked against all bodies; invariant over all reachable states; the longest chain of waiting threads ends in one that can move; exact conditions on the logging settings, with witnesses |
| C55 | frames of a traceback | fold characterisation |
| C51, C52 | exception breakpoint tables, unhandled exceptions | fold over requests; innermost-frame characterisation |
