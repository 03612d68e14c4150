import Verif.Py.Basic
import Verif.Model.Builder

/-!
# Model of what an executor does to the process which uses it

`/repo/src/fluidimage/executors/base.py` 134-148 (redirection of the standard streams), 158-180 (limits), 210-217
(`_init_compute`), 244-265 (lock file), 267-278 (`_save_job_data`), 280-299 (`_finalize_compute`), 482-489, 568-601 (multi
executors), `exec_sequential.py` 18-25, `exec_async.py` 85-97, `exec_async_servers.py` 106-119;
`/repo/src/fluidimage/topologies/base.py` 336-399 (`compute`), `/repo/src/fluidimage/topologies/nb_cpu_cores.py`.

Simplifications.  An executor is identified by a number (the uniqueness of the names of its directory and files is the
subject of C19).  The handlers of the logger are the subject of C60.  What the works do is summarised by how `compute`
ends.
-/

namespace Verif.Session
open Verif

/-! ## Streams, log files and lock files -/

/-- `sys.__stdout__`, a stream of the user, or a `MultiFile` writing in a stream and in the log file of an executor. -/
inductive Stream where
  | std
  | user (n : Nat)
  | multiFile (base : Stream) (log : Nat)
deriving DecidableEq, Repr

/-- The state of the process: `sys.stdout`, `sys.stderr`, the log files which are open, the lock files which exist, the
executors whose `_release_lock` is registered with `atexit`, and those with a file `time_end.txt`. -/
structure Proc where
  stdout : Stream
  stderr : Stream
  openLogs : List Nat
  locks : List Nat
  atExit : List Nat
  ended : List Nat
deriving DecidableEq, Repr

/-- The attributes of an executor used below; `multi`: is it a `MultiExecutorBase`? -/
structure Executor where
  id : Nat
  multi : Bool
  oldStdout : Stream
  oldStderr : Stream
deriving DecidableEq, Repr

/-- base.py 136-142: the stream under a `MultiFile` is `sys.__stdout__`. -/
def baseOf : Stream → Stream
  | .multiFile _ _ => .std
  | s => s

/-- base.py 134-148: creation of an executor. -/
def create (id : Nat) (multi : Bool) (p : Proc) : Executor × Proc :=
  (⟨id, multi, p.stdout, p.stderr⟩,
    { p with stdout := .multiFile (baseOf p.stdout) id, stderr := .multiFile (baseOf p.stderr) id,
             openLogs := id :: p.openLogs })

/-- base.py 260-265 `_release_lock` -/
def releaseLock (id : Nat) (p : Proc) : Proc :=
  if id ∈ p.locks then { p with locks := p.locks.filter (· ≠ id), ended := id :: p.ended } else p

/-- base.py 280-284 `_reset_std_as_default` -/
def resetStd (e : Executor) (p : Proc) : Proc :=
  { p with stdout := e.oldStdout, stderr := e.oldStderr, openLogs := p.openLogs.filter (· ≠ e.id) }

/-- base.py 244-258, 267-270: the lock file is created and its removal is registered. -/
def saveLock (id : Nat) (p : Proc) : Proc := { p with locks := id :: p.locks, atExit := id :: p.atExit }

/-- How `compute` goes: `initRaises`: an exception in `_init_compute`, before the creation of the lock file; `worksRaise`: an
exception escapes from the works (with `stop_if_error` for example) or from the start of the processes; `finalRaises`: an
exception in `final_seq_work`; `ends`: normal end, with `after` the exception raised after `_finalize_compute` of the base
class, if any (`RuntimeError` for failed sub-processes, base.py 600-601; failure of `_save_results_names`,
exec_sequential.py 25). -/
inductive How where
  | initRaises (e : PyErr)
  | worksRaise (e : PyErr)
  | finalRaises (e : PyErr)
  | ends (after : Option PyErr)
deriving DecidableEq, Repr

/-- `compute`: exec_sequential.py 18-25, exec_async.py 94-97, exec_async_servers.py 114-119, base.py 482-489, 568-601.
`n` is `num_expected_results`.  Result: the process and the exception which escapes. -/
def compute (e : Executor) (n : Nat) (how : How) (p : Proc) : Proc × Option PyErr :=
  match how with
  | .initRaises x => (p, some x)
  | how =>
    if n = 0 && e.multi then (p, none)                              -- base.py 487-489
    else
      let p := if n = 0 then p else saveLock e.id p                 -- base.py 214-217
      match how with
      | .initRaises x => (p, some x)
      | .worksRaise x => (p, some x)
      | .finalRaises x => (p, some x)
      | .ends after => (releaseLock e.id (resetStd e p), after)     -- base.py 294-299

/-- One computation: number of the executor, kind, number of expected results, and how it goes. -/
structure Job where
  id : Nat
  multi : Bool
  n : Nat
  how : How
deriving DecidableEq, Repr

/-- topologies/base.py 388-399: an executor is created and `compute` is called. -/
def runJob (j : Job) (p : Proc) : Proc × Option PyErr :=
  match create j.id j.multi p with
  | (e, p) => compute e j.n j.how p

/-- Several computations in the same process, the exceptions being caught by the caller. -/
def runJobs (p : Proc) : List Job → Proc
  | [] => p
  | j :: js => runJobs (runJob j p).1 js

/-- Exit of the interpreter: the functions registered with `atexit` (base.py 258) are called. -/
def exit (p : Proc) : Proc := p.atExit.foldl (fun p id => releaseLock id p) p

/-! ## Choice of the executor and of the limits -/

/-- The argument `executor` of `compute`. -/
inductive ExecArg where
  | none
  | name (s : List Char)
  | object (e : Nat)
deriving DecidableEq

/-- The executor on which `compute` is called: created from a name with a number of workers (`none`: not given), or the
object stored in the topology by a previous call. -/
inductive Used where
  | created (name : List Char) (workers : Option Int)
  | stored (e : Nat)
deriving DecidableEq

/-- The name `exec_sequential`. -/
def seqName : List Char := "exec_sequential".toList

/-- topologies/base.py 364-399 `compute`.  `names`: names of the executors installed; `default`:
`supported_multi_executors[0]`; `nbArg`: argument `nb_max_workers`; `nbTopo`: attribute `nb_max_workers` of the topology;
`previous`: attribute `executor` of the topology (`None` at first; then line 399 is an `AttributeError`). -/
def chooseExecutor (names : List (List Char)) (default : List Char) (executor : ExecArg) (sequential : Bool)
    (nbArg nbTopo : Option Int) (previous : Option Nat) : Except PyErr Used :=
  -- 364-370
  let executor : Except PyErr ExecArg :=
    if sequential then
      if executor ≠ .none ∧ executor ≠ .name seqName then .error .valueError else .ok (.name seqName)
    else .ok executor
  match executor with
  | .error e => .error e
  | .ok executor =>
    -- 372-376
    let executor := if executor = .none then .name default else executor
    match executor with
    | .none => .error .attributeError
    | .object _ => match previous with
      | some e => .ok (.stored e)
      | none => .error .attributeError
    | .name s =>
      if s ∉ names then .error .notImplementedError
      else .ok (.created s (match nbArg with | some n => some n | none => nbTopo))

/-- executors/base.py 158-176: `nb_max_workers` (an integer which is not tested); `cfg`: the value in the configuration
file. -/
def nbMaxWorkers (arg cfg : Option Int) (cores : Nat) : Int :=
  match arg with
  | some n => n
  | none => match cfg with
    | some n => n
    | none => if cores < 16 then cores + 2 else cores

/-- executors/base.py 178-180 -/
def nbItemsQueueMax (arg : Option Int) (workers : Int) : Int :=
  match arg with
  | some n => n
  | none => max (4 * workers) 8

/-! ## Number of cores -/

/-- Python `bin(m).count("1")`. -/
def popcount (m : Nat) : Nat := if m = 0 then 0 else m % 2 + popcount (m / 2)
termination_by m
decreasing_by omega

/-- nb_cpu_cores.py 14-51: `count`: `cpu_count()`; `mask`: the number after `Cpus_allowed:` in `/proc/self/status`;
`siblings`: number of logical processors of a socket in `/proc/cpuinfo`, if it is there. -/
def nbCores (count mask : Nat) (siblings : Option Nat) (allowHyperthreading : Bool) : Nat :=
  let allowed := popcount mask
  let cores := if allowed > 0 then allowed else count
  match siblings with
  | some s => if cores = s * 2 ∧ ¬ allowHyperthreading then cores / 2 else cores
  | none => cores

end Verif.Session
