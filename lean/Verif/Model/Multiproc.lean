import Mathlib.Data.List.Basic

/-!
# Model of the process of one item in the executor `exec_async_multiproc`

`/repo/src/fluidimage/executors/exec_async_multiproc.py` 22-33 (`exec_work_and_comm`, executed in the sub-process) and 71-120
(`run_process`, executed in a thread of the parent).  The rest of `async_run_work_cpu` (37-70, 121-136) is as in
`exec_async.py` (`Model/Executor.lean`), with `run_process` instead of the function.

The parent and the sub-processes are concurrent: one step is one action of one of them.  `res` is what `func(obj)` gives (the
function is deterministic), a value or an exception; `sendable` says whether it can be pickled (32).  A sub-process can die at
any time (signal, lack of memory).  A message is sent and received at once.
-/

namespace Verif.Multiproc

/-- State of a sub-process: `created`: `process.start()` has returned, the function `exec_work_and_comm` has not begun;
`running`: after `event.set()` (24); `called`: `func(obj)` has been executed (26-29); `sent`: the result has been sent (32);
`dead`: terminated or crashed. -/
inductive Child where
  | created
  | running
  | called
  | sent
  | dead
deriving DecidableEq, Repr

/-- State of the thread of the parent: `waiting`: in `event.wait(1)` (85); `timedOut`: the wait has ended without the event, the
process is not yet terminated (86-90); `receiving`: in `parent_conn.recv()` (111); `done`: the result is received; `failed`:
`RuntimeError` after 10 attempts (101-105). -/
inductive Phase (ρ : Type) where
  | waiting
  | timedOut
  | receiving
  | done (r : ρ)
  | failed
deriving DecidableEq, Repr

/-- `children`: the processes in the order of the attempts, the last one being that of the current attempt; `event`, `pipe`: the
objects shared by all the attempts (71-72); `calls`: the number of executions of `func(obj)`. -/
structure State (ρ : Type) where
  phase : Phase ρ
  children : List Child
  event : Bool
  pipe : List ρ
  calls : Nat
deriving DecidableEq, Repr

/-- Line 97: number of attempts. -/
def maxAttempts : Nat := 10

/-- 71-84, first attempt. -/
def init (ρ : Type) : State ρ := ⟨.waiting, [.created], false, [], 0⟩

/-- The actions: of the parent (`accept`, `timeout`, `terminate`, `recv`), and of the sub-process number `i`. -/
inductive Label where
  | accept
  | timeout
  | terminate
  | recv
  | start (i : Nat)
  | call (i : Nat)
  | send (i : Nat)
  | die (i : Nat)
deriving DecidableEq, Repr

/-- One action, `none` if it is not possible. -/
def step {ρ : Type} (res : ρ) (sendable : Bool) (s : State ρ) : Label → Option (State ρ)
  -- 85, 92: the event is set (by this process or by the one of a previous attempt)
  | .accept => match s.phase with
    | .waiting => if s.event then some { s with phase := .receiving } else none
    | _ => none
  -- 85: one second without the event
  | .timeout => match s.phase with
    | .waiting => if s.event then none else some { s with phase := .timedOut }
    | _ => none
  -- 90-91, then 97-98 and 79-84 (next attempt), or 101-105
  | .terminate => match s.phase with
    | .timedOut =>
      let children := s.children.set (s.children.length - 1) .dead
      if s.children.length < maxAttempts then
        some { s with phase := .waiting, children := children ++ [.created] }
      else some { s with phase := .failed, children := children }
    | _ => none
  -- 111
  | .recv => match s.phase, s.pipe with
    | .receiving, m :: rest => some { s with phase := .done m, pipe := rest }
    | _, _ => none
  -- 24
  | .start i => if s.children[i]? = some .created then
      some { s with children := s.children.set i .running, event := true } else none
  -- 26-29
  | .call i => if s.children[i]? = some .running then
      some { s with children := s.children.set i .called, calls := s.calls + 1 } else none
  -- 32: an exception in `send` ends the process
  | .send i => if s.children[i]? = some .called then
      (if sendable then some { s with children := s.children.set i .sent, pipe := s.pipe ++ [res] }
        else some { s with children := s.children.set i .dead }) else none
  | .die i => match s.children[i]? with
    | some .dead => none
    | some _ => some { s with children := s.children.set i .dead }
    | none => none

/-- Sequences of actions. -/
inductive Run {ρ : Type} (res : ρ) (sendable : Bool) : State ρ → List Label → State ρ → Prop
  | nil (s) : Run res sendable s [] s
  | snoc {s s1 s2 ls l} : Run res sendable s ls s1 → step res sendable s1 l = some s2 → Run res sendable s (ls ++ [l]) s2

/-- What happens in `async_run_work_cpu` after the process (121-136). -/
inductive After (ε α : Type) where
  /-- `work.output_queue[key] = ret` -/
  | put (r : Except ε α)
  /-- an exception raised by the function leaves the task, so `compute` (121-126) -/
  | raised (e : ε)
  /-- the `RuntimeError` of `run_process` leaves the task, so `compute` (121: there is no `try`) -/
  | runtimeError
deriving Repr

/-- Lines 119-136; `none`: still in `run_process`. -/
def after {ε α : Type} (stopIfError : Bool) : Phase (Except ε α) → Option (After ε α)
  | .done (.error e) => if stopIfError then some (.raised e) else some (.put (.error e))
  | .done (.ok v) => some (.put (.ok v))
  | .failed => some .runtimeError
  | _ => none

end Verif.Multiproc
