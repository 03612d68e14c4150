import Verif.Model.TryWork
import Verif.Model.StopSignal
import Verif.Model.Distribution
import Verif.Model.Complete

/-!
# A whole computation of PIV: executors, processes and directory of results

The pieces modelled elsewhere are put together: choice of what is computed (`topologies/piv.py` 166-189, `topologies/base.py`),
distribution over the processes (`Model/Distribution.lean`), execution of the topology in each process (`Model/Executor.lean`,
`Model/StopSignal.lean`, `Model/TryWork.lean`) and files written in the directory of the results, which is common to all the
processes.  Simplifications: a file is written at once (see C63 for a file interrupted during its write), and the text files of the
logs and the lists of results are not here.
-/

namespace Verif.WholeRun
open Verif Verif.Exec Verif.TryWork Verif.PivGrid Verif.Mask Verif.ResultsFiles Verif.Distribution Verif.Complete

/-- What defines a computation: the outside world, the series, the directory of the images, the mask, the function "image to image",
whether a result can be written, the names of the two images of each couple, the name of the file of a result
(data_objects/piv.py 352-381) and the name used to know if a couple has been computed (topologies/piv.py 166-173). -/
structure Computation (F : Type) where
  E : TryWork.Ext F
  S : TryWork.Series
  dir : Txt
  mask : MaskParams
  f : Option (Txt → Img Int → Except PyErr (Img Int))
  save : Result F → Except PyErr Unit
  images : Int → Txt × Txt
  fileName : Result F → Txt
  nameOf : Int → Txt

variable {F : Type}

/-- The topology (topologies/piv.py 98-164) -/
def Computation.topology (K : Computation F) : Topology Key (TryWork.Val F) PyErr Unit :=
  TryWork.topology K.E K.S K.mask K.f K.save

/-- The couples of the indices `is`. -/
def Computation.couples (K : Computation F) (is : List Int) : List (Int × Txt × Txt) := is.map fun i => (i, K.images i)

/-- The queues of a process which has to compute the indices `is`, after its first work (topologies/piv.py 174-209). -/
def Computation.queues (K : Computation F) (is : List Int) : Queues Key (TryWork.Val F) PyErr :=
  groupStart (coupleOps K.E K.S K.mask).toNameTuples (pathOf K.dir) ((TryWork.keys (K.couples is)).map fun c => (c.1, [c.2.1, c.2.2]))

/-- The files written by a process (topologies/piv.py 161-164), in order, with the index of the couple. -/
def Computation.saves (K : Computation F) (log : List (Event Key (TryWork.Val F) PyErr)) : List (Int × Result F) :=
  log.filterMap fun e => match e with
    | .call _ (.idx j) (.results r) => match K.save r with
      | .ok _ => some (j, r)
      | .error _ => none
    | _ => none

/-- A process with the asynchronous executor (alone, or in a multi executor: exec_async_seq_for_multi.py) which reaches its end, for
any limits and any schedule. -/
def Computation.Ended (K : Computation F) (is : List Int) (log : List (Event Key (TryWork.Val F) PyErr)) : Prop :=
  ∃ c ls s, ARun K.topology c (AState.init (K.queues is) ()) ls s ∧ s.stop = true ∧ log = s.log

/-- A process with the asynchronous executor which is killed at any time, or is stopped by an exception (`stop_if_error`), or has
received the stop signal before, or has not started. -/
def Computation.Killed (K : Computation F) (is : List Int) (log : List (Event Key (TryWork.Val F) PyErr)) : Prop :=
  ∃ c xls s, XRun K.topology c (XState.init (K.queues is) ()) xls s ∧ log = s.a.log

/-- A process with the sequential executor (exec_sequential.py) which reaches its end without exception. -/
def Computation.EndedSeq (K : Computation F) (is : List Int) (log : List (Event Key (TryWork.Val F) PyErr)) : Prop :=
  ∃ (c : Cfg) (n : Nat) (s : SState Key (TryWork.Val F) PyErr Unit),
    seqLoop K.topology c n (SState.init (K.queues is) ()) = some s ∧ s.crashed = none ∧ log = s.log

/-- The same, killed at any time (it has done the first part of what it does), or stopped by an exception (`stop_if_error`). -/
def Computation.KilledSeq (K : Computation F) (is : List Int) (log : List (Event Key (TryWork.Val F) PyErr)) : Prop :=
  ∃ (c : Cfg) (n : Nat) (s : SState Key (TryWork.Val F) PyErr Unit),
    seqLoop K.topology c n (SState.init (K.queues is) ()) = some s ∧ log <+: s.log

/-- The executors (executors/__init__.py): the argument is the number of processes. -/
inductive Executor where
  | sequential
  | async
  | multiAsync (n : Nat)
  | multiSubproc (n : Nat)
deriving DecidableEq, Repr

/-- What is asked: the indices of a range (mode "recompute" or new directory), or a list of indices (mode "complete"). -/
inductive Selection where
  | range (start stop step : Int)
  | list (is : List Int)
deriving DecidableEq, Repr

/-- The indices of a selection. -/
def Selection.indices : Selection → List Int
  | .range start stop step => pyRange start stop step
  | .list is => is

/-- The indices computed by each process: multi_exec_async.py 116-158, multi_exec_subproc.py 77-100. -/
def parts : Executor → Selection → Except PyErr (List (List Int))
  | .sequential, sel => .ok [sel.indices]
  | .async, sel => .ok [sel.indices]
  | .multiAsync n, .range start stop step => match asyncSeries start stop step n with
    | .error e => .error e
    | .ok ps => .ok (ps.map Prod.fst)
  | .multiAsync n, .list is => match asyncComplete is n with
    | .error e => .error e
    | .ok ps => .ok (ps.map Prod.fst)
  | .multiSubproc n, .range start stop step => match subprocSeries start stop step n with
    | .error e => .error e
    | .ok ps => .ok (ps.map Prod.fst)
  | .multiSubproc n, .list is => match subprocComplete is n with
    | .error e => .error e
    | .ok ps => .ok (ps.map Prod.fst)

/-- The order in which the writes of several processes happen: any order which keeps the one of each process. -/
inductive Interleaving {α : Type} : List (List α) → List α → Prop where
  | done (ls : List (List α)) (h : ∀ l ∈ ls, l = []) : Interleaving ls []
  | next (before after : List (List α)) (a : α) (l rest : List α) (h : Interleaving (before ++ l :: after) rest) :
      Interleaving (before ++ (a :: l) :: after) (a :: rest)

/-- The directory after some files have been written. -/
def Computation.write (K : Computation F) (d : Files Txt (Result F)) (l : List (Int × Result F)) : Files Txt (Result F) :=
  l.foldl (fun d x => Complete.save d (K.fileName x.2) x.2) d

/-- What a process does, when it reaches its end. -/
def Computation.process (K : Computation F) : Executor → List Int → List (Event Key (TryWork.Val F) PyErr) → Prop
  | .sequential => K.EndedSeq
  | _ => K.Ended

/-- What a process does, when it is killed or not. -/
def Computation.processKilled (K : Computation F) : Executor → List Int → List (Event Key (TryWork.Val F) PyErr) → Prop
  | .sequential => K.KilledSeq
  | _ => fun is log => K.Killed is log ∨ K.Ended is log

/-- How the computation is launched (`params.saving.how`). -/
inductive Mode where
  | recompute
  | complete
deriving DecidableEq, Repr

/-- The selection: the range of `params.series`, or in mode "complete" the indices whose file does not exist
(topologies/piv.py 166-173, executors/base.py 352-358). -/
def Computation.selection (K : Computation F) (start stop step : Int) (d : Files Txt (Result F)) : Mode → Selection
  | .recompute => .range start stop step
  | .complete => .list (indicesToBeComputed K.nameOf (pyRange start stop step) d)

/-- What a process computes of its part, when it starts with the directory `d`: the processes of `MultiExecutorAsync` have a copy of
the topology, whose mode is still "complete" (multi_exec_async.py 143-147, topologies/base.py 560-568), so they look again for the
files; the ones of `MultiExecutorSubproc` have the mode "from_path_indices" (splitters.py 108-125).  With one process, nothing
happens between the two looks. -/
def Computation.computed (K : Computation F) (x : Executor) (m : Mode) (part : List Int) (d : Files Txt (Result F)) : List Int :=
  match x, m with
  | .multiAsync _, .complete => indicesToBeComputed K.nameOf part d
  | _, _ => part

/-- A computation from the directory `d` to the directory `d'`: each of its processes does `p` with what it computes.  It starts at
any time, when the `t` first files of the computation have been written. -/
def Computation.Runs (K : Computation F) (p : List Int → List (Event Key (TryWork.Val F) PyErr) → Prop) (x : Executor) (m : Mode)
    (start stop step : Int) (d d' : Files Txt (Result F)) : Prop :=
  ∃ ps, parts x (K.selection start stop step d m) = .ok ps ∧ ∃ logs l, Interleaving (logs.map K.saves) l ∧ d' = K.write d l ∧
    List.Forall₂ (fun part log => ∃ t, p (K.computed x m part (K.write d (l.take t))) log) ps logs

/-- Several interrupted computations of the same series in the same directory, each one with any executor satisfying `ok` and any
mode. -/
inductive Computation.Interrupted (K : Computation F) (start stop step : Int) (ok : Executor → Prop) (d : Files Txt (Result F)) :
    Files Txt (Result F) → Prop where
  | none : Interrupted K start stop step ok d d
  | more (d1 d2 : Files Txt (Result F)) (h : Interrupted K start stop step ok d d1) (x : Executor) (m : Mode) (hx : ok x)
      (hr : K.Runs (K.processKilled x) x m start stop step d1 d2) : Interrupted K start stop step ok d d2

/-- A computation which reaches its end. -/
def Computation.Complete (K : Computation F) (x : Executor) (m : Mode) (start stop step : Int)
    (d d' : Files Txt (Result F)) : Prop :=
  K.Runs (K.process x) x m start stop step d d'

end Verif.WholeRun
