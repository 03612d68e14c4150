import Verif.Model.Executor

/-!
# Model of the executor based on servers

`/repo/src/fluidimage/executors/exec_async_servers.py` and the client side of
`/repo/src/fluidimage/executors/servers.py`, for a topology with one CPU work followed by one I/O work (as "compute"
and "save" of the topologies of the package).  Only the keys of the items are represented: what the functions compute
plays no role here.  An exception raised in a server is a result like any other one (`servers.py:262-276`); items
already replaced by an exception are not modelled.
-/

namespace Verif.Servers
open Verif Verif.Exec

/-- Progress of a task `async_run_work_cpu` which has popped an item. -/
inductive Phase where
  /-- the item has been popped, the thread has not yet called `worker.send_job` (lines 190-203) -/
  | popped
  /-- `worker.send_job` has been called (line 204), the thread waits for the answer -/
  | sent
  /-- the server has answered (line 207), the trio task has not yet resumed -/
  | answered
deriving DecidableEq, Repr

structure Job (κ : Type) where
  worker : Nat
  key : κ
  phase : Phase
deriving DecidableEq, Repr

/-- `nb`, `available`, `unoccupied`: attributes of the workers (`servers.py:80-92`); `chosen`: workers of the tasks
given to `start_soon` which have not begun; `saving`: keys being processed by the I/O work
(`nb_working_workers_io = len(saving)`); `saved`: keys for which the I/O work is done; `ready`: the
CPU launcher has left its first loop (lines 220-226) and looks for a worker; `cpuOn`, `ioOn`: the launchers have not
returned. -/
structure State (κ : Type) where
  qin : List κ
  qout : List κ
  nb : Nat → Int
  available : Nat → Bool
  unoccupied : Nat → Bool
  chosen : List Nat
  tasks : List (Job κ)
  saving : List κ
  saved : List κ
  stop : Bool
  ready : Bool
  cpuOn : Bool
  ioOn : Bool

inductive Label where
  | pass
  | choose (j : Nat)
  | begin (i : Nat)
  | send (i : Nat)
  | answer (i : Nat)
  | store (i : Nat)
  | ioBegin
  | ioEnd (i : Nat)
  | check
  | cpuExit
  | ioExit
deriving DecidableEq, Repr

section
variable {κ : Type}

/-- State at the beginning (`servers.py:81-87`). -/
def init (items : List κ) : State κ :=
  { qin := items, qout := [], nb := fun _ => 0, available := fun _ => true, unoccupied := fun _ => true, chosen := [],
    tasks := [], saving := [], saved := [], stop := false, ready := false, cpuOn := true, ioOn := true }

/-- `/repo/src/fluidimage/executors/exec_async_servers.py:242-261` `get_available_worker`: `j` is the first of the
available workers (with less than `max_items_in_server = 4` items, line 22) with the smallest number of items. -/
def isBest (n : Nat) (s : State κ) (j : Nat) : Bool :=
  let ok := fun i => s.available i && decide (s.nb i < 4)
  decide (j < n) && ok j &&
    (List.range n).all (fun i => !ok i || decide (s.nb j < s.nb i) || (decide (s.nb j = s.nb i) && decide (j ≤ i)))

/-- One step; `n` workers, `c` gives `nb_max_workers` (for the I/O) and `nb_items_queue_max`. -/
def step (n : Nat) (c : Cfg) (l : Label) (s : State κ) : Option (State κ) :=
  match l with
  | .pass =>         -- exec_async_servers.py:220-226
    if s.cpuOn && !s.ready && !s.qin.isEmpty && decide (s.qout.length < c.queueMax) then some { s with ready := true }
    else none
  | .choose j =>     -- exec_async_servers.py:228-237
    if s.cpuOn && s.ready && !s.stop && isBest n s j then
      some { s with available := upd s.available j false, chosen := s.chosen ++ [j], ready := false }
    else none
  | .begin i =>      -- lines 190-194
    match s.chosen[i]? with
    | none => none
    | some j =>
      let s := { s with chosen := s.chosen.eraseIdx i }
      match s.qin with
      | [] => some { s with available := upd s.available j true }
      | k :: rest => some { s with qin := rest, tasks := s.tasks ++ [⟨j, k, .popped⟩] }
  | .send i =>       -- lines 200-205, servers.py:99-102
    match s.tasks[i]? with
    | some t =>
      if t.phase = .popped then
        some { s with unoccupied := upd s.unoccupied t.worker false, nb := upd s.nb t.worker (s.nb t.worker + 1),
                      available := upd s.available t.worker true, tasks := s.tasks.set i { t with phase := .sent } }
      else none
    | none => none
  | .answer i =>     -- line 207
    match s.tasks[i]? with
    | some t => if t.phase = .sent then some { s with tasks := s.tasks.set i { t with phase := .answered } } else none
    | none => none
  | .store i =>      -- lines 213-215, servers.py:89-92
    match s.tasks[i]? with
    | some t =>
      if t.phase = .answered then
        let nb := s.nb t.worker - 1
        some { s with qout := s.qout ++ [t.key], nb := upd s.nb t.worker nb,
                      unoccupied := if nb = 0 then upd s.unoccupied t.worker true else s.unoccupied,
                      tasks := s.tasks.eraseIdx i }
      else none
    | none => none
  | .ioBegin =>      -- exec_async.py:171-182, 222-245
    match s.qout with
    | [] => none
    | k :: rest =>
      if s.ioOn && decide (s.saving.length < c.maxWorkers) then some { s with qout := rest, saving := s.saving ++ [k] }
      else none
  | .ioEnd i =>      -- exec_async.py:244-259
    match s.saving[i]? with
    | some k => some { s with saving := s.saving.eraseIdx i, saved := s.saved ++ [k] }
    | none => none
  | .check =>        -- exec_async_servers.py:141-149
    some { s with stop := s.stop ||
      (s.qin.isEmpty && s.qout.isEmpty && (List.range n).all s.unoccupied && s.saving.isEmpty) }
  | .cpuExit =>      -- lines 224-225, 230-231
    if s.stop && s.cpuOn then some { s with cpuOn := false } else none
  | .ioExit =>       -- exec_async.py:171-177: the launcher returns when it has nothing to do and the flag is set
    if s.stop && s.ioOn && s.qout.isEmpty then some { s with ioOn := false } else none

/-- Executions. -/
inductive Run (n : Nat) (c : Cfg) : State κ → List Label → State κ → Prop
  | nil (s) : Run n c s [] s
  | snoc {s s' s'' : State κ} {ls : List Label} {l : Label} :
      Run n c s ls s' → step n c l s' = some s'' → Run n c s (ls ++ [l]) s''

end
end Verif.Servers
