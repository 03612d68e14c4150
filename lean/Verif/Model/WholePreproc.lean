import Verif.Model.WholeRun
import Verif.Model.PreprocSave

/-!
# A whole computation of preprocessing: executors, processes and directory of results

As `Model/WholeRun.lean` for `topologies/preproc.py`, with the format of files "img".  A result is several files (one by image of the
subset), which are written one after the other: the saves of several subsets can be running at the same time (work of kind "io"), and
a process can be killed between two files of a save.  Simplifications: each file is written at once (see C63), the conversion to
integers of `imsave` is part of the tools, and the messages are not here.
-/

namespace Verif.WholePreproc
open Verif Verif.Exec Verif.TryWork Verif.ResultsFiles Verif.Distribution Verif.Complete Verif.WholeRun

/-- What defines a computation: the content of the image files, the directory of the images, the function "image to image", the tools
(`self.tools.apply`; an image which could not be loaded is given as an exception), whether an image can be written, the names of the
images of each subset, `get_Ni_Nj` of each subset (which can raise `NotImplementedError`, data_objects/preproc.py 24-50), and the
attribute `nb_series` of a series with given indices (fluiddyn). -/
structure Computation (V : Type) where
  imread : Txt → Except PyErr V
  dir : Txt
  f : Option (Txt → V → Except PyErr V)
  tools : List (Except PyErr V) → Except PyErr (List V)
  imsave : Txt → V → Except PyErr Unit
  names : Int → List Txt
  shape : Int → Except PyErr (Int × Int)
  nbSeries : List Int → Nat

/-- The values in the queues. -/
inductive Val (V : Type) where
  | path (p : Txt)
  | image (a : V)
  | names (l : List Key)
  | subset (i : Int) (names : List Txt) (arrays : List (Except PyErr V))
  | results (d : Dict Txt V)

variable {V : Type}

/-- topologies/preproc.py 219-225: the work "imread". -/
def readWork (imread : Txt → Except PyErr V) (_ : Key) : Val V → Except PyErr (Val V)
  | .path p => match imread p with
    | .error e => .error e
    | .ok a => .ok (.image a)
  | _ => .error .typeError

/-- topologies/preproc.py 227-236: the work "image2image" (kind "eat key value"). -/
def im2imWork (f : Txt → V → Except PyErr V) : Key → Val V → Except PyErr (Val V)
  | .name n, .image a => match f n a with
    | .error e => .error e
    | .ok b => .ok (.image b)
  | _, _ => .error .typeError

/-- An item of the queue of arrays. -/
def arrayOf : Except PyErr (Val V) → Except PyErr V
  | .ok (.image a) => .ok a
  | .ok _ => .error .typeError
  | .error e => .error e

/-- topologies/preproc.py 304-311: `ArraySubset(names=names, arrays=arrays, serie=serie)`; the names are the ones of the serie
(data_objects/preproc.py 104-107). -/
def makeSubset (K : Computation V) : Key → List Key → List (Except PyErr (Val V)) → Except PyErr (Val V)
  | .idx i, _, arrays => .ok (.subset i (K.names i) (arrays.map arrayOf))
  | _, _, _ => .error .typeError

/-- The functions used by `make_subsets`. -/
def subsetOps (K : Computation V) : SubsetOps Key (Val V) PyErr where
  tup := .names
  namesOf := fun v => match v with
    | .names l => l
    | _ => []
  namesOf_tup := fun _ => rfl
  make := makeSubset K

/-- topologies/preproc.py 246-252, works/preproc/__init__.py 100-138: the work "preproc a subset of arrays".  The subset has been made
without `ind_serie` and `nb_series`, which have their default values 0 and 1. -/
def preprocWork (K : Computation V) (_ : Key) : Val V → Except PyErr (Val V)
  | .subset i names arrays => match K.tools arrays with
    | .error e => .error e
    | .ok images => match K.shape i with
      | .error e => .error e
      | .ok (ni, nj) => .ok (.results (PreprocSave.makeDict ni nj 0 1 names images))
  | _ => .error .valueError

/-- data_objects/preproc.py 154-168: the files are written one after the other; what is written before an exception stays. -/
def written (imsave : Txt → V → Except PyErr Unit) : Dict Txt V → List (Txt × V) × Except PyErr Unit
  | [] => ([], .ok ())
  | (n, v) :: d => match imsave n v with
    | .error e => ([], .error e)
    | .ok _ => ((n, v) :: (written imsave d).1, (written imsave d).2)

/-- topologies/preproc.py 254-265: the work "save images" (`path_file` does not exist if there is no image). -/
def saveWork (K : Computation V) (_ : Key) : Val V → Except PyErr (Val V)
  | .results d => match (written K.imsave d).2 with
    | .error e => .error e
    | .ok _ => if d.isEmpty then .error .unboundLocalError else .ok (.results [])
  | _ => .error .attributeError

/-- The topology (topologies/preproc.py 202-260) -/
def Computation.topology (K : Computation V) : Topology Key (Val V) PyErr Unit :=
  preprocTopology (readWork K.imread) (K.f.map im2imWork) (subsetOps K) (preprocWork K) (saveWork K)

/-- The path of the image of a key. -/
def pathOf (dir : Txt) : Key → Val V
  | .name n => .path (dir ++ ['/'] ++ n)
  | .idx _ => .path []

/-- The subsets of the indices `is`. -/
def Computation.series (K : Computation V) (is : List Int) : List (Key × List Key) :=
  is.map fun i => (.idx i, (K.names i).map .name)

/-- The queues of a process which has to compute the indices `is`, after its first work (topologies/preproc.py 283-295). -/
def Computation.queues (K : Computation V) (is : List Int) : Queues Key (Val V) PyErr :=
  groupStart (subsetOps K).toNameTuples (pathOf K.dir) (K.series is)

/-- The files written by the saves of a process (one list by save). -/
def Computation.saves (K : Computation V) (log : List (Event Key (Val V) PyErr)) : List (List (Txt × V)) :=
  log.filterMap fun e => match e with
    | .call _ (.idx _) (.results d) => some (written K.imsave d).1
    | _ => none

/-- A process with the asynchronous executor which reaches its end, for any limits and any schedule. -/
def Computation.Ended (K : Computation V) (is : List Int) (log : List (Event Key (Val V) PyErr)) : Prop :=
  ∃ c ls s, ARun K.topology c (AState.init (K.queues is) ()) ls s ∧ s.stop = true ∧ log = s.log

/-- A process with the asynchronous executor which is killed at any time, or is stopped by an exception (`stop_if_error`), or has
received the stop signal before, or has not started. -/
def Computation.Killed (K : Computation V) (is : List Int) (log : List (Event Key (Val V) PyErr)) : Prop :=
  ∃ c xls s, XRun K.topology c (XState.init (K.queues is) ()) xls s ∧ log = s.a.log

/-- A process with the sequential executor which reaches its end without exception. -/
def Computation.EndedSeq (K : Computation V) (is : List Int) (log : List (Event Key (Val V) PyErr)) : Prop :=
  ∃ (c : Cfg) (n : Nat) (s : SState Key (Val V) PyErr Unit),
    seqLoop K.topology c n (SState.init (K.queues is) ()) = some s ∧ s.crashed = none ∧ log = s.log

/-- The same, killed at any time or stopped by an exception. -/
def Computation.KilledSeq (K : Computation V) (is : List Int) (log : List (Event Key (Val V) PyErr)) : Prop :=
  ∃ (c : Cfg) (n : Nat) (s : SState Key (Val V) PyErr Unit),
    seqLoop K.topology c n (SState.init (K.queues is) ()) = some s ∧ log <+: s.log

/-- The directory after some files have been written. -/
def write (d : Files Txt V) (l : List (Txt × V)) : Files Txt V := l.foldl (fun d x => Complete.save d x.1 x.2) d

/-- What a process does, when it reaches its end. -/
def Computation.process (K : Computation V) : Executor → List Int → List (Event Key (Val V) PyErr) → Prop
  | .sequential => K.EndedSeq
  | _ => K.Ended

/-- What a process does, when it is killed or not. -/
def Computation.processKilled (K : Computation V) : Executor → List Int → List (Event Key (Val V) PyErr) → Prop
  | .sequential => K.KilledSeq
  | _ => fun is log => K.Killed is log ∨ K.Ended is log

/-- topologies/preproc.py 270-278, data_objects/preproc.py 63-81: the name of the file which tells if the subset `i` has been computed
(`nb` is `series.nb_series`; the indices of the subsets are not negative). -/
def Computation.checked (K : Computation V) (nb : Nat) (i : Int) : Except PyErr Txt :=
  match K.shape i with
  | .error e => .error e
  | .ok (ni, nj) => Names.namePreproc ni nj (K.names i) i.toNat nb none

/-- topologies/preproc.py 267-281 `compute_indices_to_be_computed`: the loop on the subsets. -/
def Computation.missing (K : Computation V) (nb : Nat) (d : Files Txt V) : List Int → Except PyErr (List Int)
  | [] => .ok []
  | i :: is => match K.checked nb i with
    | .error e => .error e
    | .ok n => match K.missing nb d is with
      | .error e => .error e
      | .ok l => .ok (if (d n).isNone then i :: l else l)

/-- topologies/preproc.py 267-281 -/
def Computation.toBeComputed (K : Computation V) (is : List Int) (d : Files Txt V) : Except PyErr (List Int) :=
  K.missing (K.nbSeries is) d is

/-- The selection: the range of `params.series`, or in mode "complete" the indices whose file does not exist. -/
def Computation.selection (K : Computation V) (start stop step : Int) (d : Files Txt V) : Mode → Except PyErr Selection
  | .recompute => .ok (.range start stop step)
  | .complete => match K.toBeComputed (pyRange start stop step) d with
    | .error e => .error e
    | .ok is => .ok (.list is)

/-- What a process computes of its part, when it starts with the directory `d` (see `WholeRun.Computation.computed`). -/
def Computation.computed (K : Computation V) (x : Executor) (m : Mode) (part : List Int) (d : Files Txt V) : Except PyErr (List Int) :=
  match x, m with
  | .multiAsync _, .complete => K.toBeComputed part d
  | _, _ => .ok part

/-- A computation from the directory `d` to the directory `d'`: each of its processes does `p` with what it computes; each save writes
what `cut` says of its files (all of them, or the first ones if it is interrupted), in any order which keeps the one of each save.  A
process starts at any time, when the `t` first files of the computation have been written.  The log of a killed process can contain
the saves which are running when it is killed: their files are cut. -/
def Computation.Runs (K : Computation V) (p : List Int → List (Event Key (Val V) PyErr) → Prop)
    (cut : List (Txt × V) → List (Txt × V) → Prop) (x : Executor) (m : Mode)
    (start stop step : Int) (d d' : Files Txt V) : Prop :=
  ∃ sel ps, K.selection start stop step d m = .ok sel ∧ parts x sel = .ok ps ∧
    ∃ logs ws l, List.Forall₂ cut ws (logs.flatMap K.saves) ∧ Interleaving ws l ∧ d' = write d l ∧
      List.Forall₂ (fun part log => ∃ t is, K.computed x m part (write d (l.take t)) = .ok is ∧ p is log) ps logs

/-- Several interrupted computations in the same directory, each one with any executor satisfying `ok` and any mode. -/
inductive Computation.Interrupted (K : Computation V) (cut : List (Txt × V) → List (Txt × V) → Prop) (start stop step : Int)
    (ok : Executor → Prop) (d : Files Txt V) : Files Txt V → Prop where
  | none : Interrupted K cut start stop step ok d d
  | more (d1 d2 : Files Txt V) (h : Interrupted K cut start stop step ok d d1) (x : Executor) (m : Mode) (hx : ok x)
      (hr : K.Runs (K.processKilled x) cut x m start stop step d1 d2) : Interrupted K cut start stop step ok d d2

/-- A computation which reaches its end. -/
def Computation.Complete (K : Computation V) (x : Executor) (m : Mode) (start stop step : Int) (d d' : Files Txt V) : Prop :=
  K.Runs (K.process x) (fun w full => w = full) x m start stop step d d'

end Verif.WholePreproc
