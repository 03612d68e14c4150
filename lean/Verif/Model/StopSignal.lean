import Verif.Model.Executor

/-!
# The end of the asynchronous executor, and the signal 12

`/repo/src/fluidimage/executors/base.py:182-193`: on signal 12 (sent by the clusters some time before the end of the
allocated time), the handler only sets `_has_to_stop`.  `/repo/src/fluidimage/executors/exec_async.py:126-203`: the
launchers read this flag only in their waiting loops, and then return; `start_async_works` (98-105) returns when all the
launchers have returned and all the tasks started in the nursery are finished.

`Verif/Model/Executor.lean` models the steps of the executor while its launchers run; this file adds the signal and the
return of the launchers.
-/

namespace Verif.Exec
open Verif

/-- State of the executor, and the works whose launchers have returned. -/
structure XState (κ α ε σ : Type) where
  a : AState κ α ε σ
  returned : List Nat

/-- What can happen next: a step of the executor, the signal, or the return of the launcher of a work. -/
inductive XLabel where
  | run (l : Label)
  | signal
  | ret (w : Nat)
deriving DecidableEq, Repr

section
variable {κ α ε σ : Type} [DecidableEq κ]

/-- The launcher of the work `w` is in its waiting loop.

* Item: `exec_async.py:171-178, 192-199`, the condition of the loop, followed by the test of the flag (179, 200).
* Global: `exec_async.py:129-135`.  The flag is tested after a sleep, in which the queues may have been filled:
  simplification allowing more executions than the code, the launcher may be waiting whatever the queues. -/
def waits (T : Topology κ α ε σ) (c : Cfg) (w : Nat) (s : AState κ α ε σ) : Bool :=
  match T.works[w]? with
  | some (.item inp out io _) => (s.q inp).isEmpty || decide (c.maxWorkers ≤ s.counter io) || outFull c s.q out
  | some (.glob _ _ _) => true
  | none => false

/-- Steps of the executor which are not possible: a launcher which has returned does nothing (and a launcher does not run
again before the task it has started begins: it sleeps, `exec_async.py:182, 203`); the loop of `update_has_to_stop` (322)
ends when the flag is set. -/
def barred (l : Label) (s : XState κ α ε σ) : Bool :=
  match l with
  | .launch w => decide (w ∈ s.returned) || decide (w ∈ s.a.pending)
  | .glob w => decide (w ∈ s.returned)
  | .check => s.a.stop
  | _ => false

/-- The launchers after a step: `exec_async.py:142-144`, the launcher of a global work returns after a call when the flag
is set. -/
def afterStep (l : Label) (stop : Bool) (returned : List Nat) : List Nat :=
  match l with
  | .glob w => if stop then w :: returned else returned
  | _ => returned

/-- One step.  The signal is `base.py:185-193`; a second signal changes nothing (it is not a step). -/
def xstep (T : Topology κ α ε σ) (c : Cfg) (l : XLabel) (s : XState κ α ε σ) : Option (XState κ α ε σ) :=
  match l with
  | .run l =>
    if barred l s then none
    else
      match astep T c l s.a with
      | none => none
      | some a => some ⟨a, afterStep l a.stop s.returned⟩
  | .signal =>
    if s.a.stop || s.a.crashed.isSome then none
    else some { s with a := { s.a with stop := true } }
  | .ret w =>
    if s.a.crashed.isNone && s.a.stop && !decide (w ∈ s.returned) && waits T c w s.a then
      some { s with returned := w :: s.returned }
    else none

/-- The executions. -/
inductive XRun (T : Topology κ α ε σ) (c : Cfg) : XState κ α ε σ → List XLabel → XState κ α ε σ → Prop
  | nil (s) : XRun T c s [] s
  | snoc {s s' s'' : XState κ α ε σ} {ls : List XLabel} {l : XLabel} :
      XRun T c s ls s' → xstep T c l s' = some s'' → XRun T c s (ls ++ [l]) s''

/-- `exec_async.py:98-105`: the nursery is closed: the launchers and `update_has_to_stop` have returned, and no task is
left.  `compute` (94-96) then returns. -/
structure XEnded (T : Topology κ α ε σ) (s : XState κ α ε σ) : Prop where
  stop : s.a.stop = true
  returned : ∀ w < T.works.length, w ∈ s.returned
  pending : s.a.pending = []
  inflight : s.a.inflight = []

/-- `exec_async.py:92-97`: the beginning of `compute`. -/
def XState.init (q : Queues κ α ε) (a : σ) : XState κ α ε σ := ⟨AState.init q a, []⟩

end
end Verif.Exec
