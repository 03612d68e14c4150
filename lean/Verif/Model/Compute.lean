import Verif.Model.Executor

/-!
# Model of the `compute` methods, around the loops over the works

`/repo/src/fluidimage/executors/exec_sequential.py:18-25, 82-85`, `exec_async.py:85-97`, `base.py:210-217, 286-299,
482-489`.
-/

namespace Verif.Compute
open Verif Verif.Exec

/-- What `compute` uses of a topology, besides its works: `hasResults`: the topology has an attribute `results`;
`numExpected`: `num_expected_results`; `final`: `none` without `final_seq_work`, otherwise the exception it raises, if
any; `start`, `aux`: the queues after the one-shot works. -/
structure Job (κ α ε σ : Type) where
  topo : Topology κ α ε σ
  hasResults : Bool
  numExpected : Nat
  final : Option (Option PyErr)
  start : Queues κ α ε
  aux : σ

/-- Exception which escapes from `compute` (of the package, or raised by a function), and log of the works. -/
structure Outcome (κ α ε : Type) where
  exc : Option (PyErr ⊕ ε)
  log : List (Event κ α ε)

section
variable {κ α ε σ : Type} [DecidableEq κ]

/-- base.py:286-295: exception raised by `final_seq_work`. -/
def finalExc (final : Option (Option PyErr)) : Option PyErr :=
  match final with
  | some e => e
  | none => none

/-- base.py:210-217 with exec_sequential.py:82-85: is the attribute `_len_saved_results` set by `_init_compute`? -/
def lenSavedSet (job : Job κ α ε σ) : Bool := if job.numExpected = 0 then false else job.hasResults

/-- exec_sequential.py:18-25 `ExecutorSequential.compute`; at most `n` rounds of the loop.  The saves of the names of the
results inside the loop (line 75-76) are the subject of `Verif.Model.ResultsFiles`. -/
def seqCompute (job : Job κ α ε σ) (c : Cfg) (n : Nat) : Option (Outcome κ α ε) :=
  match seqLoop job.topo c n (SState.init job.start job.aux) with
  | none => none
  | some s =>
    match s.crashed with
    | some e => some ⟨some (.inr e), s.log⟩
    | none =>
      match finalExc job.final with
      | some e => some ⟨some (.inl e), s.log⟩
      | none =>
        -- `self.topology.results[self._len_saved_results :]`, base.py:395
        if job.hasResults && !lenSavedSet job then some ⟨some (.inl .attributeError), s.log⟩
        else some ⟨none, s.log⟩

/-- exec_async.py:85-97 `ExecutorAsync.compute`: possible outcomes (one for each schedule). -/
inductive AsyncCompute (job : Job κ α ε σ) (c : Cfg) : Outcome κ α ε → Prop
  | stopped {ls : List Label} {s : AState κ α ε σ} : ARun job.topo c (AState.init job.start job.aux) ls s →
      s.stop = true → s.crashed = none → AsyncCompute job c ⟨(finalExc job.final).map .inl, s.log⟩
  | crashed {ls : List Label} {s : AState κ α ε σ} {e : ε} : ARun job.topo c (AState.init job.start job.aux) ls s →
      s.crashed = some e → AsyncCompute job c ⟨some (.inr e), s.log⟩

/-- base.py:482-489 `MultiExecutorBase.compute` when nothing has to be computed (`none`: it goes on with the start of
the processes, see `Verif.Model.Multi`). -/
def multiCompute (job : Job κ α ε σ) : Option (Outcome κ α ε) :=
  if job.numExpected = 0 then some ⟨none, []⟩ else none

end
end Verif.Compute
