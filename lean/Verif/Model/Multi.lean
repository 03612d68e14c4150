import Verif.Py.Dict

/-!
# Model of the loop over the sub-processes of the multi-process executors

`/repo/src/fluidimage/executors/base.py:482-601` (`MultiExecutorBase.compute`, after `_start_processes`), with
`_poll_return_code` and `_join_processes` of the two multi-process executors.

The outside world is a function `poll`: `poll r i` is what `_poll_return_code` returns for the process of index `i` in
the `r`-th turn of the loop (`None`, or the exit code).  The texts of the errors, the progress bar and the number of
results are not modelled (a process which failed is recorded in `errors` with its exit code).
-/

namespace Verif.Multi
open Verif

/-- `return_codes` and `self.errors`, and the processes still running. -/
structure State where
  running : List Nat
  codes : Dict Nat Int
  errors : Dict Nat Int
deriving DecidableEq, Repr

/-- base.py:527-539: the body of the loop over `running_processes.items()`; `updated` is
`running_processes_updated`. -/
def pollAll (poll : Nat → Option Int) :
    List Nat → List Nat → Dict Nat Int → Dict Nat Int → List Nat × Dict Nat Int × Dict Nat Int
  | [], updated, codes, errors => (updated, codes, errors)
  | idx :: rest, updated, codes, errors =>
    match poll idx with
    | none => pollAll poll rest (updated ++ [idx]) codes errors
    | some ret =>
      if ret ≠ 0 then pollAll poll rest updated (codes.set idx ret) (errors.set idx ret)
      else pollAll poll rest updated (codes.set idx ret) errors

/-- base.py:525-560: one turn of `while running_processes`, with the swap of the two dictionaries and the `clear`. -/
def turn (poll : Nat → Option Int) (s : State) : State :=
  let (updated, codes, errors) := pollAll poll s.running [] s.codes s.errors
  ⟨updated, codes, errors⟩

/-- base.py:525: the loop; `r` is the number of the turn, `fuel` a bound on the number of turns (`none`: still
running).  Returns the number of turns done and the state. -/
def loop (poll : Nat → Nat → Option Int) : Nat → Nat → State → Option (Nat × State)
  | fuel, r, s =>
    match s.running with
    | [] => some (r, s)
    | _ :: _ =>
      match fuel with
      | 0 => none
      | fuel + 1 => loop poll fuel (r + 1) (turn (poll r) s)

/-- What the caller of `compute` sees: the exception, if any, the number of turns after which the processes are joined,
`return_codes`, `errors`, and how many times `final_seq_work` has been called. -/
structure Outcome where
  exc : Option PyErr
  turns : Nat
  codes : Dict Nat Int
  errors : Dict Nat Int
  nbFinal : Nat
deriving DecidableEq, Repr

/-- base.py:503-579 and 587-601, for `n` started processes.  `final` is the effect of `topology.final_seq_work`:
`none` if the topology has no such method, otherwise the exception it raises, if any.  `final_seq_work` is called at
line 569 and, if it has not been run, again by `_finalize_compute` (base.py:286-295). -/
def compute (n : Nat) (poll : Nat → Nat → Option Int) (final : Option (Option PyErr)) (fuel : Nat) : Option Outcome :=
  match loop poll fuel 0 ⟨List.range n, [], []⟩ with
  | none => none
  | some (r, s) =>
    match final with
    | some (some e) => some ⟨some e, r, s.codes, s.errors, 1⟩
    | some none => some ⟨if s.errors.isEmpty then none else some .runtimeError, r, s.codes, s.errors, 1⟩
    | none => some ⟨if s.errors.isEmpty then none else some .runtimeError, r, s.codes, s.errors, 0⟩

end Verif.Multi
