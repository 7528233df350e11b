/-!
Model of the termination of child processes.

Source: `/repo/_pydevd_bundle/pydevd_api.py` `_terminate_child_processes_linux_and_mac` (1071-1108),
`_terminate_child_processes_windows` (1051-1069); `/repo/pydevd.py` `dont_terminate_child_pids` (572),
`add_dont_terminate_child_pid` (3366-3381).

The routine runs while the processes of the system go on: between any two of its actions processes may fork,
end and be waited for. An action of the routine is one external command (`kill -STOP`, `pgrep -P`, `kill -KILL`)
or one turn of a loop. An execution is any list of actions of the routine and of the environment.

Simplifications: the commands `kill` and `pgrep` are there and succeed (`_call` and `_popen` swallow errors); a
signal has taken effect when the command that sends it is over; a process identifier is not used again while the
routine runs; nobody else stops, continues or kills processes; a process ends on its own only when it has no
living children (else its children are found under the init process from then on, and this routine cannot find
them). On Windows only the choice of the processes given to `taskkill` is modelled.
-/

namespace Terminate

/-- A value of Python, as far as it can be put in the set of processes to spare. -/
inductive Value where
  | int (n : Nat)
  | str (n : Nat)      -- the text of the number
  deriving DecidableEq, Repr

/-- A process of the system. `creator` and `ppid` are the process that forked it and its present parent (0, the
init process, once that one has ended). A dead process stays in the process table until its parent waits for it
(`reaped`). -/
structure Proc where
  pid : Nat
  creator : Nat
  ppid : Nat
  alive : Bool
  stopped : Bool
  reaped : Bool
  deriving DecidableEq, Repr

structure Cfg where
  /-- `this_pid` (1072) -/
  root : Nat
  /-- `py_db.dont_terminate_child_pids` (pydevd.py 572) -/
  spared : List Value
  deriving Repr

/-- `pid in dont_terminate_child_pids` (1088): `pid` is the text printed by `pgrep` (1087). -/
def skips (cfg : Cfg) (pid : Nat) : Bool := decide (Value.str pid ∈ cfg.spared)

/-- Where the routine is. -/
inductive Pc where
  /-- at the head of `for _ in range(50)` (1097) with that many turns left -/
  | begin (left : Nat)
  /-- before `pgrep -P pid` (1080); `todo`: the processes still to be visited by the callers -/
  | query (left : Nat) (pid : Nat) (todo : List Nat) (out : List Nat)
  /-- in the loop over the lines of `pgrep` (1084-1092), at any depth -/
  | visit (left : Nat) (todo : List Nat) (out : List Nat)
  /-- in the loop over the processes found (1101-1105) -/
  | killing (left : Nat) (rest : List Nat) (foundNew : Bool)
  /-- left through `break` (1107-1108) -/
  | settled
  /-- all turns used -/
  | exhausted
  deriving DecidableEq, Repr

structure State where
  procs : List Proc
  pc : Pc
  /-- `previously_found` (1095) -/
  found : List Nat
  /-- for the statements only: the process table when the children of the process itself were last listed -/
  asked : List Proc
  /-- for the statements only: how often the process itself has forked; and the same when last listed -/
  forks : Nat
  askedForks : Nat
  deriving Repr

/-- What may happen. -/
inductive Action where
  | tick                           -- the routine goes on
  | fork (parent child : Nat)
  | exit (pid : Nat)
  | reap (pid : Nat)
  deriving DecidableEq, Repr

/-- `kill -STOP pid` (1078). -/
def stop (pid : Nat) (ps : List Proc) : List Proc :=
  ps.map (fun p => if p.pid = pid then { p with stopped := true } else p)

/-- The end of a process: its children get the init process as parent. -/
def die (pid : Nat) (ps : List Proc) : List Proc :=
  ps.map (fun p => if p.pid = pid then { p with alive := false, ppid := if p.ppid = pid then 0 else p.ppid }
    else if p.ppid = pid then { p with ppid := 0 } else p)

/-- `pgrep -P pid`, without the processes to spare (1080-1089). -/
def children (cfg : Cfg) (pid : Nat) (ps : List Proc) : List Nat :=
  (ps.filter (fun p => p.ppid = pid && !p.reaped && !skips cfg p.pid)).map (·.pid)

/-- One action of the routine (1094-1108). -/
def tick (cfg : Cfg) (s : State) : State :=
  match s.pc with
  | .begin 0 => { s with pc := .exhausted }
  | .begin (n + 1) => { s with pc := .query n cfg.root [] [] }
  | .query n pid todo out =>
    let s := { s with pc := .visit n (children cfg pid s.procs ++ todo) out }
    if pid = cfg.root then { s with asked := s.procs, askedForks := s.forks } else s
  | .visit n [] out => { s with pc := .killing n out false }
  | .visit n (p :: todo) out => { s with procs := stop p s.procs, pc := .query n p todo (out ++ [p]) }
  | .killing n [] foundNew => { s with pc := if foundNew then .begin n else .settled }
  | .killing n (p :: rest) foundNew =>
    if p ∈ s.found then { s with pc := .killing n rest foundNew }
    else { s with procs := die p s.procs, found := p :: s.found, pc := .killing n rest true }
  | .settled => s
  | .exhausted => s

/-- One action of the system. An action that cannot happen changes nothing. -/
def step (cfg : Cfg) (s : State) : Action → State
  | .tick => tick cfg s
  | .fork p c =>
    if c ≠ 0 ∧ (∀ q ∈ s.procs, q.pid ≠ c) ∧ (∃ q ∈ s.procs, q.pid = p ∧ q.alive ∧ ¬ q.stopped) then
      { s with procs := s.procs ++ [⟨c, p, p, true, false, false⟩],
               forks := if p = cfg.root then s.forks + 1 else s.forks }
    else s
  | .exit p =>
    if p ≠ cfg.root ∧ (∃ q ∈ s.procs, q.pid = p ∧ q.alive ∧ ¬ q.stopped) ∧ (∀ q ∈ s.procs, q.alive → q.ppid ≠ p) then
      { s with procs := die p s.procs }
    else s
  | .reap p => { s with procs := s.procs.map (fun q => if q.pid = p ∧ ¬ q.alive then { q with reaped := true } else q) }

/-- The routine is called (1094-1097). -/
def start (ps : List Proc) : State := ⟨ps, .begin 50, [], [], 0, 0⟩

def run (cfg : Cfg) (s : State) (acts : List Action) : State := acts.foldl (step cfg) s

/-- The processes given to `taskkill` in one turn on Windows (1055-1061): there the listed identifiers are
numbers. `ps` is what `_list_ppid_and_pid` returned. -/
def windowsKills (cfg : Cfg) (ps : List (Nat × Nat)) : List Nat :=
  (ps.filter (fun e => e.1 = cfg.root && !decide (Value.int e.2 ∈ cfg.spared))).map (·.2)

/-- The loop on Windows (1053-1069), over the tables listed at the turns: the processes given to `taskkill`, in
order, and whether the loop was left because nothing was listed. -/
def windows (cfg : Cfg) : Nat → List (List (Nat × Nat)) → List Nat × Bool
  | 0, _ => ([], false)
  | _ + 1, [] => ([], false)
  | n + 1, ps :: rest =>
    if windowsKills cfg ps = [] then ([], true)
    else
      let r := windows cfg n rest
      (windowsKills cfg ps ++ r.1, r.2)

end Terminate
