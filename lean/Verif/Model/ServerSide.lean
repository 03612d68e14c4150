import Verif.Model.Servers

/-!
# Model of a server of the executor based on servers

`/repo/src/fluidimage/executors/servers.py:222-287` (`WorkerServerMultiprocessing.check_event_has_to_stop`, `receive`,
`launch_works`, `send`): four tasks run concurrently by trio in the process (or the thread) of the server.

Simplifications: a message sent through a pipe can be received at once; the message `__t_start__` and the logs are not
represented; a job is any value, `run job` is what the function gives (a result, or the exception it raised), and
`picklable` says whether it can be sent to the parent process.
-/

namespace Verif.ServerSide
open Verif

/-- State of a server: `inbox`: the jobs in the pipe, not yet received; `todo`: `to_be_processed`; `current`: the job being
executed (in a thread) by `launch_works`; `resend`: `to_be_resent`; `sending`: the result being sent by `send`; `sent`: the
answers, in order (each of them goes to the connection given with the job); `dead`: an exception was raised in one of the
tasks, which cancels the four of them. -/
structure Srv (J R : Type) where
  inbox : List J
  todo : List J
  current : Option J
  resend : List (J × R)
  sending : Option (J × R)
  sent : List (J × R)
  dead : Bool

inductive Label where
  | receive
  | launch
  | finish
  | takeResult
  | send
deriving DecidableEq, Repr

variable {J R : Type}

/-- The parent process has sent these jobs. -/
def Srv.init (jobs : List J) : Srv J R := ⟨jobs, [], none, [], none, [], false⟩

/-- One step of one of the tasks. -/
def step (run : J → R) (picklable : R → Bool) (l : Label) (s : Srv J R) : Option (Srv J R) :=
  if s.dead then none
  else
    match l with
    | .receive =>      -- 232-239
      match s.inbox with
      | [] => none
      | j :: rest => some { s with inbox := rest, todo := s.todo ++ [j] }
    | .launch =>       -- 242-257
      match s.current, s.todo with
      | none, j :: rest => some { s with todo := rest, current := some j }
      | _, _ => none
    | .finish =>       -- 259-276
      match s.current with
      | none => none
      | some j => some { s with current := none, resend := s.resend ++ [(j, run j)] }
    | .takeResult =>   -- 279-282
      match s.sending, s.resend with
      | none, r :: rest => some { s with resend := rest, sending := some r }
      | _, _ => none
    | .send =>         -- 285-287: the exception of `child_conn.send` is not caught
      match s.sending with
      | none => none
      | some r =>
        if picklable r.2 then some { s with sending := none, sent := s.sent ++ [r] } else some { s with sending := none, dead := true }

/-- Executions. -/
inductive Run (run : J → R) (picklable : R → Bool) : Srv J R → List Label → Srv J R → Prop
  | nil (s) : Run run picklable s [] s
  | snoc {s s' s'' : Srv J R} {ls : List Label} {l : Label} :
      Run run picklable s ls s' → step run picklable l s' = some s'' → Run run picklable s (ls ++ [l]) s''

/-! ## Shutdown -/

/-- Where the task `launch_works` (or `send`) is: at the test of the outer loop, in the inner loop, working, or ended. -/
inductive Pos where
  | outer
  | inner
  | working
  | ended
deriving DecidableEq, Repr

/-- servers.py:241-276 and 278-287: one turn of the task; `continue`: `_has_to_continue`; `empty`: there is nothing in
the list. -/
def taskTurn (continue_ empty : Bool) : Pos → Pos
  | .outer => if continue_ then .inner else .ended   -- 242, 279
  | .inner => if empty then .inner else .working     -- 243-244, 280-281
  | .working => .outer                               -- 246-276, 282-287
  | .ended => .ended

end Verif.ServerSide
