import Mathlib.Data.List.Basic
import Mathlib.Logic.Function.Basic

/-!
# Model of the stop signal with the multi executors

`/repo/src/fluidimage/executors/base.py` 481-568 (`MultiExecutorBase.compute` with its handler of the signal 12, 493-505),
`/repo/src/fluidimage/executors/multi_exec_async.py` 160-188 (forked processes) and
`/repo/src/fluidimage/executors/multi_exec_subproc.py` 74-115 (new interpreters).

Simplifications.  A standard signal is pending or not (it is not counted), as in POSIX.  What a process does after its own
handler has set its flag is the subject of C104: here it only ends, some time later, with some exit code.  The files with
the numbers of results, the progress bar and the final work are not modelled here (`Model/Multi.lean`).  Python runs a
handler between two instructions of the main thread: here between two labels.
-/

namespace Verif.MultiSignal

/-- How the processes are made: multi_exec_async.py 179-184 (`multiprocessing`, fork: the handler of the parent is
inherited) or multi_exec_subproc.py 101-112 (`subprocess`, a new program: the default action of the signal, which ends the
process). -/
inductive Kind where
  | fork | spawn
deriving DecidableEq

/-- A process. -/
inductive Proc where
  | notStarted
  /-- its executor has not yet installed its handler (base.py 182-193) -/
  | young
  /-- `told` is the attribute `_has_to_stop` of its executor -/
  | ready (told : Bool)
  /-- exited, but the parent has not asked for its exit code (zombie) -/
  | ended (code : Int)
  /-- the parent has its exit code: the pid does not belong to the process any more -/
  | reaped (code : Int)
deriving DecidableEq

/-- What the multi executor does. -/
inductive Main where
  /-- 507 `self._start_processes()` -/
  | starting
  /-- 531-559: processes of this turn still to be polled, processes found running in this turn, errors (537-548) -/
  | polling (todo kept : List Nat) (errors : List (Nat × Int))
  /-- 568: without exception if there is no error, otherwise a `RuntimeError` -/
  | returned (errors : List (Nat × Int))
  /-- `ProcessLookupError` raised by `os.kill` in the handler -/
  | raised
deriving DecidableEq

structure State where
  procs : Nat → Proc
  /-- processes to which a signal has been sent but which have not yet handled it -/
  pending : Nat → Bool
  /-- number of elements of `self.processes` -/
  listed : Nat
  main : Main
  /-- number of signals sent to processes which have nothing to do with the computation -/
  strangers : Nat

/-- Before 507. -/
def init : State := ⟨fun _ => .notStarted, fun _ => false, 0, .starting, 0⟩

/-- 502-503 `for process in self.processes: os.kill(process.pid, signal_number)`: for the processes `is`.  `reused i` says
that the pid of the process `i`, which does not exist any more, has been given to another process of the user.
The second result is `false` when `os.kill` raises. -/
def killAll (reused : Nat → Bool) : List Nat → State → State × Bool
  | [], s => (s, true)
  | i :: is, s =>
    match s.procs i with
    | .reaped _ => if reused i then killAll reused is { s with strangers := s.strangers + 1 } else (s, false)
    | .ended _ => killAll reused is s
    | _ => killAll reused is { s with pending := Function.update s.pending i true }

inductive Label where
  /-- multi_exec_async.py 184 or multi_exec_subproc.py 101: the process number `listed` is started -/
  | launch
  /-- multi_exec_async.py 185 or multi_exec_subproc.py 113: `self.processes.append(process)` -/
  | append
  /-- 508-513 -/
  | startPolling
  /-- 534-548: one process is polled -/
  | poll
  /-- 531, 556-559: end of a turn -/
  | turn
  /-- the executor of the process `i` installs its handler -/
  | ready (i : Nat)
  /-- the process `i` ends -/
  | finish (i : Nat) (code : Int)
  /-- the parent receives the signal 12 -/
  | signal (reused : Nat → Bool)
  /-- the process `i` handles its pending signal -/
  | deliver (i : Nat) (reused : Nat → Bool)

/-- The parent is in its loop (it can handle signals until the end of the program, also after the return of `compute`). -/
def Main.alive : Main → Bool
  | .raised => false
  | _ => true

/-- Exit codes of the ended processes collected: `multiprocessing.Process.start` begins with the cleanup of the children which
have ended. -/
def reapEnded (p : Nat → Proc) : Nat → Proc := fun i =>
  match p i with
  | .ended c => .reaped c
  | q => q

def setProc (s : State) (i : Nat) (p : Proc) : State := { s with procs := Function.update s.procs i p }

/-- One step, with `n` processes to be started. -/
def step (k : Kind) (n : Nat) : Label → State → Option State
  | .launch, s =>
    match s.main, s.procs s.listed with
    | .starting, .notStarted =>
      if s.listed < n then
        some (setProc { s with procs := match k with
          | .fork => reapEnded s.procs
          | .spawn => s.procs } s.listed .young)
      else none
    | _, _ => none
  | .append, s =>
    match s.main, s.procs s.listed with
    | .starting, .notStarted => none
    | .starting, _ => some { s with listed := s.listed + 1 }
    | _, _ => none
  | .startPolling, s =>
    match s.main with
    | .starting => if s.listed = n then some { s with main := .polling (List.range n) [] [] } else none
    | _ => none
  | .poll, s =>
    match s.main with
    | .polling (i :: todo) kept errors =>
      match s.procs i with
      | .ended c => some { setProc s i (.reaped c) with
          main := .polling todo kept (if c = 0 then errors else errors ++ [(i, c)]) }
      | .reaped c => some { s with main := .polling todo kept (if c = 0 then errors else errors ++ [(i, c)]) }
      | _ => some { s with main := .polling todo (kept ++ [i]) errors }
    | _ => none
  | .turn, s =>
    match s.main with
    | .polling [] [] errors => some { s with main := .returned errors }
    | .polling [] (i :: kept) errors => some { s with main := .polling (i :: kept) [] errors }
    | _ => none
  | .ready i, s =>
    match s.procs i with
    | .young => some (setProc s i (.ready false))
    | _ => none
  | .finish i c, s =>
    match s.procs i with
    | .young => some (setProc { s with pending := Function.update s.pending i false } i (.ended c))
    | .ready _ => some (setProc { s with pending := Function.update s.pending i false } i (.ended c))
    | _ => none
  | .signal reused, s =>
    if s.main.alive then
      match killAll reused (List.range s.listed) s with
      | (s', true) => some s'
      | (s', false) => some { s' with main := .raised }
    else none
  | .deliver i reused, s =>
    if s.pending i then
      let s := { s with pending := Function.update s.pending i false }
      match s.procs i, k with
      -- base.py 185-191: the handler of its executor
      | .ready _, _ => some (setProc s i (.ready true))
      -- the default action of the signal 12
      | .young, .spawn => some (setProc s i (.ended (-12)))
      -- base.py 495-503, in the child: `self` is the copy of the multi executor, whose list has been copied by the fork
      | .young, .fork =>
        match killAll reused (List.range i) s with
        | (s', true) => some s'
        | (s', false) => some (setProc s' i (.ended 1))
      | _, _ => some s
    else none

inductive Run (k : Kind) (n : Nat) : State → List Label → State → Prop
  | nil (s) : Run k n s [] s
  | cons {s s' s'' l ls} : step k n l s = some s' → Run k n s' ls s'' → Run k n s (l :: ls) s''

end Verif.MultiSignal
