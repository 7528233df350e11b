/-!
# The debugger's own locks

Every `with <lock>:` of the debugger and what is called while the lock is held, read function by
function.  A function of the code becomes a value of `Fn`; its `body` lists what it may do that
matters here: take a lock for the time of a region (`lock k r`: take a lock of kind `k`, run the
region `r`, give the lock back) or call another function.  A region is itself a value of `Fn`.

Control flow is forgotten: a running function may perform any of the entries of its body, in any
order, any number of times, and may return (or raise) at any moment.  Every execution of the code
is an execution of the model; the model has more.

What is not here: the locks inside Python (the mutex of `queue.Queue`, import locks, the internal
locks of `Event`), except `threading._active_limbo_lock`, which the debugger itself takes; waiting
for something other than a lock (`join`, `Event.wait`, sockets); locks taken by code of the user,
and code of the user which calls the public functions of the debugger from inside of an evaluation
or a `__str__`; finalizers run by the garbage collector.
-/

namespace Locks

/-- The locks, by the attribute which holds them.  Some exist once per object (a lock per
breakpoint, per tracker of frames, per redirected stream): a `Lock` below is a kind and a number. -/
inductive Kind
  | setTrace        -- pydevd.py:3028 `_set_trace_lock`
  | main            -- pydevd.py:638 `PyDB._main_lock`
  | redirections    -- _pydevd_bundle/pydevd_io.py:154 `_RedirectionsHolder._lock` (reentrant)
  | disposed        -- pydevd.py:651 `_disposed_lock`
  | waitCalled      -- pydevd.py:647 `_wait_for_threads_to_finish_called_lock`
  | fsNotify        -- pydevd.py `_lock_create_fs_notify` (used 811)
  | running         -- pydevd.py `_lock_running_thread_ids` (used 1713, 1735, 1752, 1777)
  | suspendThreads  -- pydevd_thread_lifecycle.py:84 `suspend_threads_lock`
  | timeoutTracker  -- pydevd_timeout.py:167 `TimeoutTracker._lock`
  | timeoutThread   -- pydevd_timeout.py:33 `_TimeoutThread._lock`
  | notification    -- pydevd.py:386 `AbstractSingleNotificationBehavior._lock`
  | callbacks       -- pydevd.py:480 `_callbacks_lock`
  | customFrames    -- pydevd_custom_frames.py:22 `custom_frames_lock`
  | framesTracker   -- pydevd_suspended_frames.py:346 `_FramesTracker._lock` (reentrant)
  | modules         -- pydevd_net_command_factory_json.py:62 `ModulesManager._lock`
  | hitCondition    -- pydevd_breakpoints.py:57, 86 `_hit_condition_lock`
  | skippedStepIn   -- pydevd_trace_dispatch_regular.py:46, _pydevd_sys_monitoring.py:103
  | anyThread       -- pydevd_comm.py:585 `InternalThreadCommandForAnyThread.lock`
  | helperLib       -- pydevd_tracing.py:141 `_lock`
  | additionalInfo  -- pydevd_additional_thread_info_regular.py:211
  | updateInfos     -- pydevd_additional_thread_info_regular.py:261
  | threadId        -- pydevd_constants.py:512 `_thread_id_lock`
  | limbo           -- `threading._active_limbo_lock` (pydevd_daemon_thread.py:109-158)
  | stream          -- pydevd_io.py:24 `IORedirector._lock` (reentrant)
  | showDebug       -- pydevd_net_command.py:54 `_show_debug_info_lock` (reentrant)
  | logInit         -- pydev_log.py:13 `_initialize_lock`
deriving DecidableEq, Repr

/-- `ForkSafeLock(rlock=True)` (pydevd_constants.py:447-495): the kinds which a thread that holds
the lock may take again. -/
def Kind.reentrant : Kind → Bool
  | .redirections | .framesTracker | .stream | .showDebug => true
  | _ => false

/-- The functions, and the regions which run with a lock held. -/
inductive Fn
  -- leaves
  | log | logInitRegion | stdWrite | streamRegion | netCommand | showDebugRegion | userCode
  | enumerateThreads | nothing | getThreadId | dummyThreadRegion
  -- per-thread information
  | setAdditionalInfo | setAdditionalInfoRegion | updateInfosRegion | updateSteppingInfo
  | removeAdditionalInfo
  -- frames
  | getFramesList | findFrame | trackFrames | trackRegion | untrackAll
  | createSuspendCommand | createSuspendRegion | exceptionInfo
  | customFrameAdd | customFrameRegion | customFrameUpdate | customFrameUpdateRegion
  | setTraceForFrames
  -- threads
  | notifyCreated | notifyCreatedRegion | notifyNotAlive | notifyNotAliveRegion
  | setEnableNotifications | markSuspended | resumeThreads | suspendAll
  -- the single notification of a suspension
  | incrementSuspendTime | onPause | onThreadSuspend | onThreadSuspendRegion
  | onThreadResume | onThreadResumeRegion | notifyAfterTimeout | addOnResumed
  | setSuspend | setSuspendRegion
  -- timeouts
  | callOnTimeout | callOnTimeoutRegion | timeoutHandleExit | processHandles
  | processHandlesRegion | unblockThreads | killTimeoutThread
  -- redirection
  | redirectStream | redirectRegion | startRedirect | checkOutputRedirect
  -- evaluation
  | evaluate | evaluateBody | evaluateSuspendAgain | replRegion | hitCondition
  -- requests and internal commands
  | trackModule | trackModuleRegion | getThreadStack | listThreads | setupAutoReload
  | autoReloadRegion | startThread | onRequest | onRequestRegion | doInternalCommand
  | processInternalCommands | internalCommandsRegion | internalCommandsThreads
  | cancelAsync | cancelAsyncRegion | dispose | disposeRegion
  -- suspension of a thread, tracing
  | doWaitSuspend | waitCustomFramesRegion | waitKilledRegion | notifySkipped
  | notifySkippedRegion | helperLib | helperLibRegion | traceDispatch
  -- threads of the debugger and entry points
  | readerThread | writerThread | commandThread | checkAliveThread | timeoutThread
  | settrace | settraceRegion | settraceCustomFrames | stoptrace
deriving DecidableEq, Repr

inductive Act
  | lock (k : Kind) (region : Fn)
  | call (f : Fn)
deriving DecidableEq, Repr

/-- What decides whether messages of the log can come back as messages for the client.
`verbose`: `DebugInfoHolder.DEBUG_TRACE_LEVEL >= 1`; `logRedirected`: the stream of the log is a
redirected `sys.stderr` (it was initialized after the redirection started, or in a forked child:
pydev_log.py:47-48, pydev_monkey.py:232); `logFileFails`: the file named by `PYDEVD_DEBUG_FILE`
cannot be opened (pydev_log.py:57-60). -/
structure Cfg where
  verbose : Bool
  logRedirected : Bool
  logFileFails : Bool
deriving DecidableEq, Repr

open Act Kind Fn in
/-- What each function may do.  The lines are those of the function. -/
def body (cfg : Cfg) : Fn → List Act
  -- pydev_log.py:140-200, 203-211: `initialize_debug_stream` and a write
  | log => [lock logInit logInitRegion] ++ (if cfg.logRedirected then [call stdWrite] else [])
  -- pydev_log.py:30-60: `traceback.print_exc()` when the file cannot be opened
  | logInitRegion => if cfg.logFileFails then [call stdWrite] else []
  -- pydevd_io.py:31-44 `IORedirector.write`
  | stdWrite => [lock stream streamRegion]
  -- pydevd_io.py:38-41, 90-106 `RedirectToPyDBIoMessages.write`: an io message
  | streamRegion => [call netCommand]
  -- pydevd_net_command.py:58-86 `NetCommand.__init__`
  | netCommand => if cfg.verbose then [lock showDebug showDebugRegion] else []
  -- pydevd_net_command.py:128-147 `_show_debug_info`
  | showDebugRegion => [call log]
  -- code of the user: an expression, a `__str__`, a `__repr__`
  | userCode => [call stdWrite]
  -- `threading.enumerate`, `threading.current_thread` (pydevd_daemon_thread.py:109, 118)
  | enumerateThreads => [lock limbo nothing]
  | nothing => []
  -- pydevd_constants.py:615-687
  | getThreadId => [lock threadId nothing]
  -- pydevd_tracing.py:348-357
  | dummyThreadRegion => [call log]
  -- pydevd_additional_thread_info_regular.py:219-247
  | setAdditionalInfo => [lock additionalInfo setAdditionalInfoRegion]
  | setAdditionalInfoRegion => [lock updateInfos updateInfosRegion]
  -- pydevd_additional_thread_info_regular.py:126-149 under 275, 304
  | updateInfosRegion => [call log]
  -- pydevd_additional_thread_info_regular.py:269-296
  | updateSteppingInfo => [lock updateInfos updateInfosRegion, call getThreadId]
  -- pydevd_additional_thread_info_regular.py:315-318
  | removeAdditionalInfo => [lock updateInfos updateInfosRegion]
  -- pydevd_suspended_frames.py:429-435
  | getFramesList => [lock framesTracker nothing]
  | findFrame => [lock framesTracker nothing, call log]
  -- pydevd_suspended_frames.py:374-407
  | trackFrames => [lock framesTracker trackRegion]
  | trackRegion => [call stdWrite]
  -- pydevd_suspended_frames.py:409-427
  | untrackAll => [lock framesTracker nothing]
  -- pydevd_suspended_frames.py:437-447
  | createSuspendCommand => [lock framesTracker createSuspendRegion]
  -- pydevd_net_command_factory_json.py:476-, pydevd_net_command_factory_xml.py:279-342
  | createSuspendRegion => [call log, call exceptionInfo, call userCode, call netCommand]
  -- pydevd_comm.py:1452-1600
  | exceptionInfo => [call setAdditionalInfo, call getFramesList, call userCode, call log]
  -- pydevd_custom_frames.py:74-91
  | customFrameAdd => [lock customFrames customFrameRegion]
  | customFrameRegion => [call enumerateThreads, call getThreadId, call stdWrite]
  -- pydevd_custom_frames.py:93-107, 110-114
  | customFrameUpdate => [lock customFrames customFrameUpdateRegion]
  | customFrameUpdateRegion => [call stdWrite, call log]
  -- pydevd.py:2377-2424, _pydevd_sys_monitoring.py:751-783
  | setTraceForFrames => [call log, call setAdditionalInfo]
  -- pydevd.py:1705-1727
  | notifyCreated => [lock running notifyCreatedRegion, call getThreadId, call netCommand]
  | notifyCreatedRegion => [call setAdditionalInfo]
  -- pydevd.py:1729-1749
  | notifyNotAlive => [lock running notifyNotAliveRegion, call netCommand]
  | notifyNotAliveRegion => [call setAdditionalInfo, call removeAdditionalInfo]
  -- pydevd.py:1751-1759
  | setEnableNotifications => [lock running nothing]
  -- pydevd_thread_lifecycle.py:28-50
  | markSuspended => [call log, call setAdditionalInfo, call updateSteppingInfo]
  -- pydevd_thread_lifecycle.py:53-79
  | resumeThreads =>
      [call log, call enumerateThreads, call getThreadId, call setAdditionalInfo,
       call updateSteppingInfo]
  -- pydevd_thread_lifecycle.py:87-121
  | suspendAll =>
      [call log, call enumerateThreads, call markSuspended, call setTraceForFrames]
  -- pydevd.py:396-398
  | incrementSuspendTime => [lock notification nothing]
  -- pydevd.py:400-411
  | onPause => [lock notification nothing, call callOnTimeout]
  -- pydevd.py:423-447, 499-503
  | onThreadSuspend => [lock notification onThreadSuspendRegion]
  | onThreadSuspendRegion => [call log, call setAdditionalInfo, call exceptionInfo, call netCommand]
  -- pydevd.py:449-462, 487-498; the callbacks are those of
  -- pydevd_process_net_command_json.py:562-566
  | onThreadResume => [lock notification onThreadResumeRegion]
  | onThreadResumeRegion => [call log, lock callbacks nothing, call netCommand]
  -- pydevd.py:413-421
  | notifyAfterTimeout => [lock notification onThreadSuspendRegion]
  -- pydevd.py:483-485
  | addOnResumed => [lock callbacks nothing]
  -- pydevd.py:1920-1988
  | setSuspend =>
      [call incrementSuspendTime, call onPause, lock suspendThreads setSuspendRegion,
       call setTraceForFrames, call enumerateThreads, call getThreadId, call netCommand]
  | setSuspendRegion => [call markSuspended, call suspendAll]
  -- pydevd_timeout.py:170-201
  | callOnTimeout => [lock timeoutTracker callOnTimeoutRegion]
  | callOnTimeoutRegion => [call startThread, lock timeoutThread nothing, call log]
  -- pydevd_timeout.py:141-152
  | timeoutHandleExit => [lock timeoutTracker nothing]
  -- pydevd_timeout.py:51-95, 120-136: the callbacks are those of pydevd.py:409,
  -- pydevd_vars.py:300-303, 321-325, 366-367
  | processHandles => [lock timeoutThread processHandlesRegion]
  | processHandlesRegion =>
      [call log, call notifyAfterTimeout, call unblockThreads, call enumerateThreads,
       call netCommand]
  -- pydevd_vars.py:321-325
  | unblockThreads => [call log, call resumeThreads, call onThreadResume]
  -- pydevd_timeout.py:97-100
  | killTimeoutThread => [call log, lock timeoutThread nothing]
  -- pydevd_io.py:204-239
  | redirectStream => [lock redirections redirectRegion]
  | redirectRegion => [call startRedirect]
  -- pydevd_io.py:162-202
  | startRedirect => [lock redirections nothing]
  -- pydevd.py:1603-1623, 2845-2850
  | checkOutputRedirect => [call redirectStream]
  -- pydevd_comm.py:1174-1282
  | evaluate => [lock redirections replRegion, call evaluateBody]
  -- pydevd_io.py:242-256: the redirection of a repl lasts for the whole evaluation
  | replRegion => [call redirectStream, call evaluateBody]
  -- pydevd_vars.py:298-372, 445-640
  | evaluateBody =>
      [call findFrame, call callOnTimeout, call timeoutHandleExit, call getThreadId,
       lock suspendThreads evaluateSuspendAgain, call startThread, call userCode,
       call netCommand, call log]
  -- pydevd_vars.py:340-346
  | evaluateSuspendAgain =>
      [call markSuspended, call incrementSuspendTime, call suspendAll, call onThreadSuspend]
  -- pydevd_breakpoints.py:64-75, 93-104
  | Fn.hitCondition => [lock Kind.hitCondition userCode]
  -- pydevd_net_command_factory_json.py:66-106
  | trackModule => [lock modules trackModuleRegion]
  | trackModuleRegion => [call userCode, call netCommand]
  -- pydevd_comm.py:680-706, pydevd_net_command_factory_json.py:236-330
  | getThreadStack =>
      [call enumerateThreads, call getThreadId, call setAdditionalInfo, call getFramesList,
       call trackModule, call netCommand, call log]
  -- pydevd_net_command_factory_json.py:167-192
  | listThreads => [call enumerateThreads, call getThreadId, call notifyCreated, call netCommand]
  -- pydevd.py:809-878
  | setupAutoReload => [lock fsNotify autoReloadRegion, call log]
  | autoReloadRegion => [call log, call startThread]
  -- `Thread.start` of a thread of the debugger (pydevd_daemon_thread.py:195-202)
  | startThread => [lock limbo nothing, call log]
  -- pydevd_process_net_command_json.py:207-222, pydevd_process_net_command.py:59-82
  | onRequest => [call stdWrite, call log, lock main onRequestRegion]
  -- pydevd_api.py, pydevd_process_net_command_json.py, pydevd_process_net_command.py: what the
  -- handlers of requests call
  | onRequestRegion =>
      [call setSuspend, call resumeThreads, call setEnableNotifications, call redirectStream,
       call setupAutoReload, call getThreadStack, call listThreads, call addOnResumed,
       call setTraceForFrames, call enumerateThreads, call getThreadId, call setAdditionalInfo,
       call updateSteppingInfo, call startThread, call stdWrite, call netCommand, call log]
  -- pydevd_comm.py:587-596 and the methods executed by an internal command
  | doInternalCommand =>
      [lock anyThread nothing, call evaluate, call getThreadStack, call findFrame,
       call setAdditionalInfo, call updateSteppingInfo, call enumerateThreads, call getThreadId,
       call exceptionInfo, call userCode, call netCommand, call log]
  -- pydevd.py:1761-1860
  | processInternalCommands =>
      [lock main internalCommandsRegion, call dispose, call doInternalCommand, call log]
  | internalCommandsRegion =>
      [call checkOutputRedirect, call enumerateThreads, lock running internalCommandsThreads,
       call getThreadId, call getThreadStack, call log]
  -- pydevd.py:1777-1807, with `use_lock=False` for the notifications
  | internalCommandsThreads =>
      [call log, call getThreadId, call setAdditionalInfo, call removeAdditionalInfo,
       call netCommand]
  -- pydevd.py:2069-2082
  | cancelAsync => [lock main cancelAsyncRegion]
  | cancelAsyncRegion => [call enumerateThreads, call log]
  -- pydevd.py:2446-2560
  | dispose =>
      [call log, lock disposed nothing, lock waitCalled nothing, lock main disposeRegion,
       call killTimeoutThread]
  | disposeRegion => [call log]
  -- pydevd.py:2088-2360
  | doWaitSuspend =>
      [call processInternalCommands, call getThreadId, call log, call trackFrames,
       call createSuspendCommand, call netCommand, lock customFrames waitCustomFramesRegion,
       call onThreadSuspend, call updateSteppingInfo, lock main nothing, call enumerateThreads,
       call doInternalCommand, call cancelAsync, call setTraceForFrames, call untrackAll,
       call onThreadResume, call incrementSuspendTime, lock customFrames waitKilledRegion]
  -- pydevd.py:2156-2180
  | waitCustomFramesRegion =>
      [call trackFrames, call createSuspendCommand, call netCommand]
  -- pydevd.py:2352-2356
  | waitKilledRegion => [call netCommand]
  -- pydevd_trace_dispatch_regular.py:49-58, _pydevd_sys_monitoring.py:112-121
  | notifySkipped => [lock skippedStepIn notifySkippedRegion]
  | notifySkippedRegion => [call log, call netCommand]
  -- pydevd_tracing.py:144-160, 330-400
  | Fn.helperLib =>
      [call enumerateThreads, lock limbo dummyThreadRegion, lock Kind.helperLib helperLibRegion,
       call log]
  | helperLibRegion => [call log]
  -- pydevd_trace_dispatch_regular.py, pydevd_frame.py, _pydevd_sys_monitoring.py: the callbacks
  -- which watch the program of the user
  | traceDispatch =>
      [call setAdditionalInfo, call getThreadId, call notifyCreated, call notifyNotAlive,
       call Fn.hitCondition, call userCode, call setSuspend, call doWaitSuspend,
       call notifySkipped, call updateSteppingInfo, call customFrameAdd, call customFrameUpdate,
       call netCommand, call log]
  -- pydevd_comm.py:226-329
  | readerThread => [call onRequest, call dispose, call log]
  -- pydevd_comm.py:355-440
  | writerThread => [call dispose, call log]
  -- pydevd.py:264-290
  | commandThread => [call processInternalCommands, call log]
  -- pydevd.py:308-334
  | checkAliveThread =>
      [lock main nothing, call enumerateThreads, call checkOutputRedirect, call dispose, call log]
  -- pydevd_timeout.py:35-49
  | Fn.timeoutThread => [call processHandles, call log]
  -- pydevd.py:3007-3025
  | settrace => [lock setTrace settraceRegion]
  -- pydevd.py:3031-3178
  | settraceRegion =>
      [call startThread, call redirectStream, call setAdditionalInfo,
       call processInternalCommands, call setTraceForFrames, call Fn.helperLib,
       lock customFrames settraceCustomFrames, call setSuspend, call updateSteppingInfo,
       call enumerateThreads, call netCommand, call log]
  -- pydevd.py:3139-3141
  | settraceCustomFrames => [call setTraceForFrames]
  -- pydevd.py:3181-3215
  | stoptrace => [call log, call dispose]

/-! ## Running it -/

/-- A lock of the process: its kind and which one of that kind. -/
structure Lock where
  kind : Kind
  inst : Nat
deriving DecidableEq, Repr

/-- A function, or a region with the lock it will give back, being executed. -/
structure Frame where
  fn : Fn
  lock : Option Lock
deriving DecidableEq, Repr

/-- A thread: what it is executing (the innermost first), and the lock it waits for, together with
the region to run with that lock. -/
structure Thread where
  stack : List Frame
  want : Option (Lock × Fn)
deriving DecidableEq, Repr

/-- The process.  `owner` and `count` are the state of the locks: who has the lock and how many
times (a lock which is not reentrant is taken at most once). -/
structure State where
  thread : Nat → Thread
  owner : Lock → Option Nat
  count : Lock → Nat

def start : State :=
  { thread := fun _ => ⟨[], none⟩, owner := fun _ => none, count := fun _ => 0 }

def setThread (s : State) (t : Nat) (x : Thread) : State :=
  { s with thread := fun u => if u = t then x else s.thread u }

/-- The locks a thread holds. -/
def Thread.held (x : Thread) : List Lock := x.stack.filterMap (·.lock)

/-- A lock can be had at once by thread `t`: `lock.acquire()` of `threading.Lock` and of
`threading.RLock`. -/
def grantable (s : State) (t : Nat) (l : Lock) : Prop :=
  s.owner l = none ∨ (s.owner l = some t ∧ l.kind.reentrant = true)

def setLock (s : State) (l : Lock) (o : Option Nat) (n : Nat) : State :=
  { s with owner := fun m => if m = l then o else s.owner m
           count := fun m => if m = l then n else s.count m }

/-- Gives a lock back: it is free when it was given back as many times as it was taken. -/
def release (s : State) (l : Lock) : State :=
  if s.count l ≤ 1 then setLock s l none 0 else setLock s l (s.owner l) (s.count l - 1)

/-- One step of one thread.  Nothing says which thread moves next. -/
inductive Step (cfg : Cfg) : State → State → Prop
  /-- A thread which is not in the debugger enters one of its functions. -/
  | enter (s : State) (t : Nat) (f : Fn)
      (idle : (s.thread t).stack = []) (free : (s.thread t).want = none) :
      Step cfg s (setThread s t ⟨[⟨f, none⟩], none⟩)
  /-- A call. -/
  | call (s : State) (t : Nat) (fr : Frame) (rest : List Frame) (f : Fn)
      (top : (s.thread t).stack = fr :: rest) (free : (s.thread t).want = none)
      (mem : Act.call f ∈ body cfg fr.fn) :
      Step cfg s (setThread s t ⟨⟨f, none⟩ :: fr :: rest, none⟩)
  /-- `with lock:` begins: from here on the thread waits.  Which of the locks of the kind it is
  depends on the object; a thread which already holds a reentrant lock of that kind asks for the
  one it holds (there is one `redirections` and one `showDebug` lock; a tracker of frames is looked
  up by the id of the thread it belongs to, pydevd_suspended_frames.py:504-508, and a redirected
  stream does not write to another redirected stream). -/
  | request (s : State) (t : Nat) (fr : Frame) (rest : List Frame) (l : Lock) (r : Fn)
      (top : (s.thread t).stack = fr :: rest) (free : (s.thread t).want = none)
      (mem : Act.lock l.kind r ∈ body cfg fr.fn)
      (same : l.kind.reentrant = true → ∀ h ∈ (s.thread t).held, h.kind = l.kind → h = l) :
      Step cfg s (setThread s t ⟨fr :: rest, some (l, r)⟩)
  /-- The lock is there. -/
  | grant (s : State) (t : Nat) (l : Lock) (r : Fn)
      (want : (s.thread t).want = some (l, r)) (ok : grantable s t l) :
      Step cfg s (setThread (setLock s l (some t) (s.count l + 1)) t
        ⟨⟨r, some l⟩ :: (s.thread t).stack, none⟩)
  /-- A function returns. -/
  | ret (s : State) (t : Nat) (f : Fn) (rest : List Frame)
      (top : (s.thread t).stack = ⟨f, none⟩ :: rest) (free : (s.thread t).want = none) :
      Step cfg s (setThread s t ⟨rest, none⟩)
  /-- A region ends, normally or with an exception, and its lock is given back. -/
  | leave (s : State) (t : Nat) (f : Fn) (l : Lock) (rest : List Frame)
      (top : (s.thread t).stack = ⟨f, some l⟩ :: rest) (free : (s.thread t).want = none) :
      Step cfg s (setThread (release s l) t ⟨rest, none⟩)

inductive Reachable (cfg : Cfg) : State → Prop
  | start : Reachable cfg start
  | step {s s' : State} : Reachable cfg s → Step cfg s s' → Reachable cfg s'

end Locks
