import Verif.Model.Multi

/-!
# Model of the pipes between a multi-process executor and its sub-processes

`/repo/src/fluidimage/executors/multi_exec_subproc.py:100-113` starts the sub-processes with
`stdout=subprocess.PIPE, stderr=subprocess.PIPE`; the parent only reads `stderr`, once the process has exited with an
error (base.py:536-543), and never reads `stdout`.  A pipe of the operating system holds a bounded number of bytes
(65536 with Linux) and a write to a full pipe blocks the writer until somebody reads.

In the sub-process, `exec_async_seq_for_multi.py:27-73` and base.py:135-148 decide what is written in the pipes: `stderr`
is duplicated in the pipe and in the log file, `stdout` also, but goes only to the log file during the computation of the
topologies which have an attribute `results`.

The content of the texts is not modelled, only their numbers of bytes; the buffers of Python are flushed at the latest
at the exit.
-/

namespace Verif.Pipes
open Verif Verif.Multi

/-- Steps of a sub-process: `n` bytes to write in the pipe of `stdout` or of `stderr`, or something else. -/
inductive Act where
  | out (n : Nat)
  | err (n : Nat)
  | work
deriving DecidableEq, Repr

/-- A sub-process: what it still has to do and the numbers of bytes in its two pipes. -/
structure Child where
  todo : List Act
  out : Nat
  err : Nat
deriving DecidableEq, Repr

/-- One step of a sub-process whose parent does not read; it stays unchanged if it is blocked, or has exited.  `cap` is
the capacity of a pipe. -/
def Child.step (cap : Nat) (c : Child) : Child :=
  match c.todo with
  | [] => c
  | .work :: rest => { c with todo := rest }
  | .out 0 :: rest => { c with todo := rest }
  | .out (n + 1) :: rest => if c.out < cap then { c with todo := .out n :: rest, out := c.out + 1 } else c
  | .err 0 :: rest => { c with todo := rest }
  | .err (n + 1) :: rest => if c.err < cap then { c with todo := .err n :: rest, err := c.err + 1 } else c

/-- `k` steps. -/
def Child.steps (cap : Nat) : Nat → Child → Child
  | 0, c => c
  | k + 1, c => Child.steps cap k (c.step cap)

/-- A sub-process which starts: the pipes are empty. -/
def Child.start (todo : List Act) : Child := ⟨todo, 0, 0⟩

/-- When a text is printed: before the executor is created (imports, reading of the parameters), while it exists, after
`_reset_std_as_default` (base.py:280-284). -/
inductive Stage where
  | before | compute | after
deriving DecidableEq, Repr

/-- `sys.stdout` or `sys.stderr`. -/
inductive Stream where
  | stdout | stderr
deriving DecidableEq, Repr

/-- base.py:135-148, 280-284 and exec_async_seq_for_multi.py:59-70: what is written in the pipes when `n` bytes are printed;
`results`: the topology has an attribute `results`. -/
def printed (results : Bool) : Stage × Stream × Nat → Act
  | (_, .stderr, n) => .err n
  | (.compute, .stdout, n) => if results then .work else .out n
  | (.before, .stdout, n) => .out n
  | (.after, .stdout, n) => .out n

/-- `process.poll()` for a sub-process which has done `k` steps and exits with `code`. -/
def pollChild (cap : Nat) (c : Child) (k : Nat) (code : Int) : Option Int :=
  match (c.steps cap k).todo with
  | [] => some code
  | _ :: _ => none

end Verif.Pipes
