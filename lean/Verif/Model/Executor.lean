import Verif.Py.Dict

/-!
# Model of the executors: works, queues, sequential and asynchronous execution

Types: `κ` keys of the items, `α` values, `ε` Python exceptions raised by the functions of the works,
`σ` state of the topology held outside of the dictionaries (`QueueList`, class `TopologyMeanImage`).

An item of a queue is `Except ε α`: a Python value, or an exception object stored in the queue in place of the
result (`exec_sequential.py:65,73`, `exec_async.py:250,258`).
-/

namespace Verif.Exec
open Verif

/-- The observable actions of an execution.  `call w k v`: the function of the `w`-th work has been called for
the item of key `k` with the value `v`, and has returned or raised (every side effect of the work, such as
writing a result file, is a function of this call).  `failed w k e`: `ExecutorBase.log_exception` has recorded
that this call raised `e` (`executors/base.py:320-343`).  `dropped w k e`: `Work.check_exception` has logged that
the work can not be done for `k` because of the earlier error `e` (`topologies/base.py:165-169`).
`note w n`: an action of a global work (for instance the file written by `TopologyMeanImage.main`). -/
inductive Event (κ α ε : Type) where
  | call (w : Nat) (k : κ) (v : α)
  | failed (w : Nat) (k : κ) (e : ε)
  | dropped (w : Nat) (k : κ) (e : ε)
  | note (w : Nat) (k : κ) (v : α)
deriving DecidableEq, Repr

/-- The queues of a topology, numbered in the order of `topology.queues`. -/
abbrev Queues (κ α ε : Type) := Nat → Dict κ (Except ε α)

/-- `/repo/src/fluidimage/topologies/base.py:107-177` `Work`.

* `item`: input queue, output queue (or `None`), `kind` is I/O or not, and the function, which takes the object or
  the couple (key, object) (`prepare_argument`, lines 173-177), and returns a value or raises.
* `glob`: `kind = "global"`.  `ready` is the condition under which the asynchronous launcher calls the function
  (`exec_async.py:129-132`: some input queue is not empty); `outLen` is `len(work.output_queue)` (`none` if there is
  no output queue, the number of queues for a tuple); `run nio` is the function, which reads and modifies the queues
  and may read `executor.nb_working_workers_io` (`nio`, `none` for an executor without this attribute).

"one shot" works are not in `executor.works` (`executors/base.py:196-200`): they have filled the initial queues. -/
inductive Work (κ α ε σ : Type) where
  | item (inp : Nat) (out : Option Nat) (io : Bool) (f : κ → α → Except ε α)
  | glob (ready : Queues κ α ε → σ → Bool) (outLen : Queues κ α ε → Option Nat)
      (run : Option Nat → Queues κ α ε → σ → Except ε (Queues κ α ε × σ × List (Event κ α ε)))

/-- A topology: `nq` queues, the works in the order of `topology.works`, and emptiness of the extra state. -/
structure Topology (κ α ε σ : Type) where
  nq : Nat
  works : List (Work κ α ε σ)
  auxEmpty : σ → Bool

/-- Parameters of an executor (`executors/base.py:104-205`): `nb_max_workers`, `nb_items_queue_max`,
`stop_if_error`. -/
structure Cfg where
  maxWorkers : Nat
  queueMax : Nat
  stopIfError : Bool
deriving DecidableEq, Repr

section
variable {κ α ε σ : Type} [DecidableEq κ]

/-- Replacement of one queue. -/
def upd {β : Type} (q : Nat → β) (i : Nat) (d : β) : Nat → β := fun j => if j = i then d else q j

/-- `if work.output_queue is not None: work.output_queue[key] = ret`
(`exec_sequential.py:72-73`, `exec_async.py:257-258, 310-311`). -/
def put (q : Queues κ α ε) (out : Option Nat) (k : κ) (r : Except ε α) : Queues κ α ε :=
  match out with
  | none => q
  | some o => upd q o ((q o).set k r)

/-- `/repo/src/fluidimage/topologies/base.py:156-171` `Work.check_exception`, when the object is the exception
`e`: it is forwarded to the output queue, or logged ("can not be done") without output queue. -/
def forward (w : Nat) (q : Queues κ α ε) (log : List (Event κ α ε)) (out : Option Nat) (k : κ) (e : ε) :
    Queues κ α ε × List (Event κ α ε) :=
  match out with
  | some o => (upd q o ((q o).set k (.error e)), log)
  | none => (q, log ++ [.dropped w k e])

/-- `not any([bool(queue) for queue in self.topology.queues])` -/
def allEmpty (T : Topology κ α ε σ) (q : Queues κ α ε) (a : σ) : Bool :=
  (List.range T.nq).all (fun i => (q i).isEmpty) && T.auxEmpty a

/-! ## Sequential executor -/

/-- State of `ExecutorSequential._run_works`; `crashed` is the exception which has escaped from `compute`. -/
structure SState (κ α ε σ : Type) where
  q : Queues κ α ε
  aux : σ
  log : List (Event κ α ε)
  crashed : Option ε

/-- `/repo/src/fluidimage/executors/exec_sequential.py:32-35`:
`work.output_queue is not None and len(work.output_queue) > self.nb_items_queue_max`. -/
def seqFull (c : Cfg) (outLen : Option Nat) : Bool :=
  match outLen with
  | none => false
  | some n => decide (c.queueMax < n)

/-- `/repo/src/fluidimage/executors/exec_sequential.py:30-73`: the body of the loop `for work in self.works`. -/
def seqWork (c : Cfg) (w : Nat) (work : Work κ α ε σ) (s : SState κ α ε σ) : SState κ α ε σ :=
  match s.crashed with
  | some _ => s
  | none =>
    match work with
    | .glob _ outLen run =>
      if seqFull c (outLen s.q) then s
      else
        match run none s.q s.aux with
        | .error e => { s with crashed := some e }
        | .ok (q, a, evs) => { s with q := q, aux := a, log := s.log ++ evs }
    | .item inp out _ f =>
      match (s.q inp).popFirst with
      | .error _ => s
      | .ok ((k, r), rest) =>
        match r with
        | .error e =>
          let r := forward w (upd s.q inp rest) s.log out k e
          { s with q := r.1, log := r.2 }
        | .ok v =>
          match f k v with
          | .ok r => { s with q := put (upd s.q inp rest) out k (.ok r), log := s.log ++ [.call w k v] }
          | .error e =>
            if c.stopIfError then
              { s with q := upd s.q inp rest, log := s.log ++ [.call w k v, .failed w k e], crashed := some e }
            else
              { s with
                q := put (upd s.q inp rest) out k (.error e), log := s.log ++ [.call w k v, .failed w k e] }

/-- `/repo/src/fluidimage/executors/exec_sequential.py:29`: `for work in self.works`. -/
def seqWorks (c : Cfg) : Nat → List (Work κ α ε σ) → SState κ α ε σ → SState κ α ε σ
  | _, [], s => s
  | w, work :: works, s => seqWorks c (w + 1) works (seqWork c w work s)

/-- `/repo/src/fluidimage/executors/exec_sequential.py:28`: `while not all(queues empty)`.
`n` bounds the number of rounds; `none` when the loop is not finished after `n` rounds. -/
def seqLoop (T : Topology κ α ε σ) (c : Cfg) : Nat → SState κ α ε σ → Option (SState κ α ε σ)
  | n, s =>
    if s.crashed.isSome then some s
    else if allEmpty T s.q s.aux then some s
    else match n with
      | 0 => none
      | n + 1 => seqLoop T c n (seqWorks c 0 T.works s)

/-! ## Asynchronous executor -/

/-- An item being processed: the function of the work `w` runs in a thread (`trio.to_thread.run_sync`,
`exec_async.py:245,298`), in the main thread (`exec_async_sequential.py`) or in a sub-process
(`exec_async_multiproc.py`). -/
structure Task (κ α : Type) where
  w : Nat
  key : κ
  val : α
deriving DecidableEq, Repr

/-- State of `ExecutorAsync`.  `pending`: works of the tasks given to `nursery.start_soon` which have not begun;
`inflight`: running tasks; `nio`, `ncpu`: `nb_working_workers_io`, `nb_working_workers_cpu`; `stop`:
`_has_to_stop`; `crashed`: exception which has cancelled the nursery. -/
structure AState (κ α ε σ : Type) where
  q : Queues κ α ε
  aux : σ
  pending : List Nat
  inflight : List (Task κ α)
  nio : Nat
  ncpu : Nat
  stop : Bool
  crashed : Option ε
  log : List (Event κ α ε)

/-- What the trio scheduler can do next. -/
inductive Label where
  /-- the launcher of the work `w` leaves its waiting loop and calls `start_soon` -/
  | launch (w : Nat)
  /-- a pending task of the work `w` begins -/
  | begin (w : Nat)
  /-- the `i`-th running function returns or raises, and its task ends -/
  | finish (i : Nat)
  /-- the function of the global work `w` is called -/
  | glob (w : Nat)
  /-- one iteration of `update_has_to_stop` -/
  | check
deriving DecidableEq, Repr

/-- `work.output_queue is not None and len(work.output_queue) >= self.nb_items_queue_max` -/
def outFull (c : Cfg) (q : Queues κ α ε) (out : Option Nat) : Bool :=
  match out with
  | none => false
  | some o => decide (c.queueMax ≤ (q o).length)

/-- `nb_working_workers_io` or `nb_working_workers_cpu` -/
def AState.counter (s : AState κ α ε σ) (io : Bool) : Nat := if io then s.nio else s.ncpu

/-- `self.nb_working_workers_X += 1` -/
def AState.incr (s : AState κ α ε σ) (io : Bool) : AState κ α ε σ :=
  if io then { s with nio := s.nio + 1 } else { s with ncpu := s.ncpu + 1 }

/-- `self.nb_working_workers_X -= 1` -/
def AState.decr (s : AState κ α ε σ) (io : Bool) : AState κ α ε σ :=
  if io then { s with nio := s.nio - 1 } else { s with ncpu := s.ncpu - 1 }

/-- `/repo/src/fluidimage/executors/exec_async.py:171-182, 192-203`: the launcher of an I/O or CPU work. -/
def launchStep (T : Topology κ α ε σ) (c : Cfg) (w : Nat) (s : AState κ α ε σ) : Option (AState κ α ε σ) :=
  match T.works[w]? with
  | some (.item inp out io _) =>
    if (s.q inp).isEmpty || decide (c.maxWorkers ≤ s.counter io) || outFull c s.q out then none
    else some { s with pending := s.pending ++ [w] }
  | _ => none

/-- `/repo/src/fluidimage/executors/exec_async.py:222-245, 275-298`: beginning of `async_run_work_io` /
`async_run_work_cpu`, up to the point where the function is started. -/
def beginStep (T : Topology κ α ε σ) (w : Nat) (s : AState κ α ε σ) : Option (AState κ α ε σ) :=
  if w ∈ s.pending then
    let s := { s with pending := s.pending.erase w }
    match T.works[w]? with
    | some (.item inp out io _) =>
      let s := s.incr io
      match (s.q inp).popFirst with
      | .error _ => some (s.decr io)
      | .ok ((k, r), rest) =>
        let s := { s with q := upd s.q inp rest }
        match r with
        | .error e =>
          let r := forward w s.q s.log out k e
          some ({ s with q := r.1, log := r.2 }.decr io)
        | .ok v => some { s with inflight := s.inflight ++ [⟨w, k, v⟩] }
    | _ => none
  else none

/-- `/repo/src/fluidimage/executors/exec_async.py:244-259, 297-312`: the function has returned or raised. -/
def finishStep (T : Topology κ α ε σ) (c : Cfg) (i : Nat) (s : AState κ α ε σ) : Option (AState κ α ε σ) :=
  match s.inflight[i]? with
  | none => none
  | some t =>
    match T.works[t.w]? with
    | some (.item _ out io f) =>
      let s := { s with inflight := s.inflight.eraseIdx i }
      match f t.key t.val with
      | .ok r =>
        some ({ s with q := put s.q out t.key (.ok r), log := s.log ++ [Event.call t.w t.key t.val] }.decr io)
      | .error e =>
        let s := { s with log := s.log ++ [Event.call t.w t.key t.val, Event.failed t.w t.key e] }
        if c.stopIfError then some { s with crashed := some e }
        else some ({ s with q := put s.q out t.key (.error e) }.decr io)
    | _ => none

/-- `/repo/src/fluidimage/executors/exec_async.py:129-142`: call of a global function. -/
def globStep (T : Topology κ α ε σ) (w : Nat) (s : AState κ α ε σ) : Option (AState κ α ε σ) :=
  match T.works[w]? with
  | some (.glob ready _ run) =>
    if ready s.q s.aux then
      match run (some s.nio) s.q s.aux with
      | .error e => some { s with crashed := some e }
      | .ok (q, a, evs) => some { s with q := q, aux := a, log := s.log ++ evs }
    else none
  | _ => none

/-- `/repo/src/fluidimage/executors/exec_async.py:322-331`: `update_has_to_stop`. -/
def checkStep (T : Topology κ α ε σ) (s : AState κ α ε σ) : AState κ α ε σ :=
  if allEmpty T s.q s.aux && s.ncpu == 0 && s.nio == 0 then { s with stop := true } else s

/-- One step of the asynchronous executor.  No step is possible after a crash.  Simplifications, all of them
allowing more executions than the code: launchers are allowed to run after `_has_to_stop` is set (in the code
they return as soon as they have to wait), a launcher may run again before the task it has started begins, and
the tasks of `pending` begin in any order.  `exec_async_sequential.py` (a CPU function runs without interruption:
`begin` directly followed by `finish`) is a restriction on the order of the steps. -/
def astep (T : Topology κ α ε σ) (c : Cfg) (l : Label) (s : AState κ α ε σ) : Option (AState κ α ε σ) :=
  match s.crashed with
  | some _ => none
  | none =>
    match l with
    | .launch w => launchStep T c w s
    | .begin w => beginStep T w s
    | .finish i => finishStep T c i s
    | .glob w => globStep T w s
    | .check => some (checkStep T s)

/-- `/repo/src/fluidimage/executors/exec_async.py:59-60, 94-96`: state at the beginning of `trio.run`, the queues being
filled by the one-shot works. -/
def AState.init (q : Queues κ α ε) (a : σ) : AState κ α ε σ :=
  { q := q, aux := a, pending := [], inflight := [], nio := 0, ncpu := 0, stop := false, crashed := none, log := [] }

/-- Initial state of the sequential executor. -/
def SState.init (q : Queues κ α ε) (a : σ) : SState κ α ε σ := { q := q, aux := a, log := [], crashed := none }

/-- The executions of the asynchronous executor: `ARun T c s ls s'` when the steps `ls` lead from `s` to `s'`. -/
inductive ARun (T : Topology κ α ε σ) (c : Cfg) : AState κ α ε σ → List Label → AState κ α ε σ → Prop
  | nil (s) : ARun T c s [] s
  | snoc {s s' s'' : AState κ α ε σ} {ls : List Label} {l : Label} :
      ARun T c s ls s' → astep T c l s' = some s'' → ARun T c s (ls ++ [l]) s''

end
end Verif.Exec
