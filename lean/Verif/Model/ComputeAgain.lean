import Verif.Model.Distribution

/-!
# Model of a topology object which is computed several times

* `/repo/src/fluidimage/topologies/base.py:336-399` (`TopologyBase.compute`: a new executor each time, the same topology), 549-581
  (`init_series`), 600-650 (`compute_indices_to_be_computed`, `fill_queue_paths`);
* `/repo/src/fluidimage/executors/base.py:209-217, 345-378` (`_init_compute`, the number of expected results), 388-410 (the results
  which are saved), 545-575 (the results of the processes);
* `/repo/src/fluidimage/executors/multi_exec_async.py:62-160` (the topologies of the processes are shallow copies: the object `series`
  and the list of works are those of the topology of the user);
* `/repo/src/fluidimage/executors/multi_exec_subproc.py:26-100`;
* `/repo/src/fluidimage/topologies/piv.py:159-200`, `preproc.py:262-300`.

What is modelled is what stays in the topology between two calls of `compute`: the range or the indices of the series, the list of works
(is its first work, which fills the first queue, still there?) and the list `results`.  An item (a couple, a subset, an image) is an
integer; its result is one file.  How the items go through the works, in which order, and the other errors are the subject of C09-C15,
C104 and C117: here an item which is executed succeeds, and then its file is written and its name added to `results`, or fails.

`fluiddyn` is not in the repository.  Its `SeriesOfArrays` is described as follows: `items()`, iteration and `len` use the indices given
by `set_index_series` if it has been called, and `range(ind_start, ind_stop, ind_step)` otherwise.
-/

namespace Verif.ComputeAgain
open Verif Verif.Splitters Verif.Distribution

/-- The object `topology.series` (`fluiddyn.util.serieofarrays.SeriesOfArrays`). -/
structure Series where
  start : Int
  stop : Int
  step : Int
  index : Option (List Int)
deriving DecidableEq, Repr

/-- `series.items()` -/
def Series.items (s : Series) : List Int :=
  match s.index with
  | some l => l
  | none => pyRange s.start s.stop s.step

/-- `topology.how_saving`, fixed when the topology is created.  `new_dir` is as `recompute` once the directory has been chosen. -/
inductive How where
  | recompute
  | complete
deriving DecidableEq, Repr

/-- What gives the items: the series of a PIV or of a preprocessing, or the images of the topologies whose first work fills a queue of
paths (image to image, BOS, mean).  `filling`: the first work of `topology.works` is the one which fills the queue. -/
inductive Source where
  | series (s : Series)
  | images (items : List Int) (filling : Bool)
deriving DecidableEq, Repr

structure Topo where
  how : How
  source : Source
  results : List Int
deriving DecidableEq, Repr

inductive Exec where
  | sequential
  | async
  | multiAsync (n : Nat)
  | multiSubproc (n : Nat)
deriving DecidableEq, Repr

/-- What can be observed of one call of `compute`: the items which are executed, the list `topology.results` when the text of the end is
made (topologies/base.py:401-412), and the exception. -/
structure Report where
  executed : List Int
  results : List Int
  error : Option PyErr
deriving DecidableEq, Repr

/-- piv.py:166-173, preproc.py:267-281, topologies/base.py:600-612: the items without file. -/
def missing (disk items : List Int) : List Int := items.filter (fun i => !disk.contains i)

/-- The items in mode `complete` and in the other modes. -/
def select (how : How) (disk items : List Int) : List Int :=
  match how with
  | .complete => missing disk items
  | .recompute => items

/-- executors/base.py:345-378 `_init_num_expected_results`: what is counted.  In the other modes than `complete` the length is that of
`range(series.ind_start, series.ind_stop, series.ind_step)`. -/
def expected (T : Topo) (disk : List Int) : List Int :=
  match T.source with
  | .images items _ => select T.how disk items
  | .series s =>
    match T.how with
    | .complete => missing disk s.items
    | .recompute => pyRange s.start s.stop s.step

/-- topologies/base.py:549-581 `init_series` followed by piv.py:191-194, or topologies/base.py:616-650 `fill_queue_paths`: the items put
in the queues, and the topology, whose series now has these indices in mode `complete`. -/
def fill (T : Topo) (disk : List Int) : List Int × Topo :=
  match T.source with
  | .images items _ => (select T.how disk items, T)
  | .series s =>
    if s.items = [] then ([], T)
    else
      match T.how with
      | .complete => (missing disk s.items, { T with source := .series { s with index := some (missing disk s.items) } })
      | .recompute => (s.items, T)

/-- The items which succeed: their files are written and their names are added to `results` (piv.py:161-164). -/
def succeed (fails : Int → Bool) (items : List Int) : List Int := items.filter (fun i => !fails i)

/-- One process: the queues are filled, every item is executed. -/
def runOne (T : Topo) (disk : List Int) (fails : Int → Bool) : List Int × Topo :=
  ((fill T disk).1, { (fill T disk).2 with results := (fill T disk).2.results ++ succeed fails (fill T disk).1 })

/-- exec_sequential.py:18-25, exec_async.py:85-97.  Without first work filling the queue: `NotImplementedError` (executors/base.py:367).
When nothing is expected, the sequential executor goes on and `_save_results_names` raises `AttributeError` (C20). -/
def computeIn (seq : Bool) (T : Topo) (disk : List Int) (fails : Int → Bool) : Topo × List Int × Report :=
  match T.source with
  | .images _ false => (T, disk, ⟨[], T.results, some .notImplementedError⟩)
  | _ =>
    ((runOne T disk fails).2, disk ++ succeed fails (runOne T disk fails).1,
      ⟨(runOne T disk fails).1, (runOne T disk fails).2.results,
        if seq && (expected T disk).isEmpty then some .attributeError else none⟩)

/-- multi_exec_async.py:142-147 and 150-158: `new_topology = copy.copy(self.topology)` shares the object `series`, which is modified for
each process; the process which is started sees it as it is at this time.  The series at the end, and the ones seen by the processes. -/
def launch {β : Type} (set : β → Series → Series) : Series → List β → Series × List Series
  | s, [] => (s, [])
  | s, b :: bs => ((launch set (set b s) bs).1, set b s :: (launch set (set b s) bs).2)

/-- `new_topology.series.set_index_series(index_series)` -/
def setIndex (l : List Int) (s : Series) : Series := { s with index := some l }

/-- `series.ind_start, series.ind_stop, series.ind_step = start_stop_step` -/
def setRange (r : Range) (s : Series) : Series := { s with start := r.1, stop := r.2.1, step := r.2.2 }

/-- The processes started on these series, each with the list `results` of the topology of the user; then executors/base.py:567-570,
`topology.results` is replaced by the lines of the files of all the processes (in the order of the processes: the real one is that of
`glob`).  The processes compute different items, so that what they see of the directory does not depend on the others. -/
def runChildren (T : Topo) (disk : List Int) (fails : Int → Bool) (s' : Series) (children : List Series) :
    Topo × List Int × Report :=
  let runs := children.map (fun s => runOne { T with source := .series s } disk fails)
  let executed := (runs.map (fun r => r.1)).flatten
  let results := (runs.map (fun r => r.2.results)).flatten
  ({ T with source := .series s', results := results }, disk ++ succeed fails executed, ⟨executed, results, none⟩)

/-- `MultiExecutorAsync` (executors/base.py:482-578, multi_exec_async.py:44-160).  With images, `del topology.works[0]` (line 77) is done
in the list of works which is also that of the topology of the user. -/
def computeMultiAsync (n : Nat) (T : Topo) (disk : List Int) (fails : Int → Bool) : Topo × List Int × Report :=
  match T.source with
  | .images _ false => (T, disk, ⟨[], T.results, some .notImplementedError⟩)
  | .images items true =>
    if expected T disk = [] then (T, disk, ⟨[], T.results, none⟩)
    else
      match splitList (expected T disk) n with
      | .error e => (T, disk, ⟨[], T.results, some e⟩)
      | .ok parts =>
        let results := (parts.map (fun p => T.results ++ succeed fails p)).flatten
        ({ T with source := .images items false, results := results }, disk ++ succeed fails parts.flatten,
          ⟨parts.flatten, results, none⟩)
  | .series s =>
    if expected T disk = [] then (T, disk, ⟨[], T.results, none⟩)
    else
      match T.how with
      | .complete =>
        match asyncComplete (expected T disk) n with
        | .error e => (T, disk, ⟨[], T.results, some e⟩)
        | .ok procs =>
          let l := launch setIndex s (procs.map (fun p => p.1))
          runChildren T disk fails l.1 l.2
      | .recompute =>
        match splitRange s.start s.stop s.step n with
        | .error e => (T, disk, ⟨[], T.results, some e⟩)
        | .ok ranges =>
          let l := launch setRange s ((asyncRanges ranges).map (fun p => p.1))
          runChildren T disk fails l.1 l.2

/-- The items of the processes of `MultiExecutorSubproc` (splitters.py:150-209, 220-278).  For images in another mode than `complete`
the splitting is that of the first index (C04); here the list of the images is split, which gives the same items. -/
def subprocParts (n : Nat) (T : Topo) (disk : List Int) : Except PyErr (List (List Int × Nat)) :=
  match T.source, T.how with
  | .series s, .recompute => subprocSeries s.start s.stop s.step n
  | _, _ => subprocComplete (expected T disk) n

/-- `MultiExecutorSubproc`: the sub-processes create their own topologies, from files of parameters, so that the lists `results` are
empty and nothing is changed in the topology of the user but `results`. -/
def computeMultiSubproc (n : Nat) (T : Topo) (disk : List Int) (fails : Int → Bool) : Topo × List Int × Report :=
  match subprocParts n T disk with
  | .error e => (T, disk, ⟨[], T.results, some e⟩)
  | .ok procs =>
    if expected T disk = [] then (T, disk, ⟨[], T.results, none⟩)
    else
      let executed := (procs.map (fun p => p.1)).flatten
      ({ T with results := succeed fails executed }, disk ++ succeed fails executed, ⟨executed, succeed fails executed, none⟩)

/-- `topology.compute(executor)` -/
def compute (e : Exec) (T : Topo) (disk : List Int) (fails : Int → Bool) : Topo × List Int × Report :=
  match e with
  | .sequential => computeIn true T disk fails
  | .async => computeIn false T disk fails
  | .multiAsync n => computeMultiAsync n T disk fails
  | .multiSubproc n => computeMultiSubproc n T disk fails

/-- What happens between two observations: a call of `compute` during which some items fail, or the removal of the file of an item. -/
inductive Event where
  | compute (e : Exec) (fails : Int → Bool)
  | delete (i : Int)

def step (w : Topo × List Int) : Event → Topo × List Int
  | .compute e fails => ((compute e w.1 w.2 fails).1, (compute e w.1 w.2 fails).2.1)
  | .delete i => (w.1, w.2.filter (fun j => j != i))

/-- A history of the topology and of its directory. -/
def history (w : Topo × List Int) (es : List Event) : Topo × List Int := es.foldl step w

/-- A new topology on a series (piv.py:78-91). -/
def newSeries (how : How) (start stop step : Int) : Topo := ⟨how, .series ⟨start, stop, step, none⟩, []⟩

/-- A new topology on images. -/
def newImages (how : How) (items : List Int) : Topo := ⟨how, .images items true, []⟩

end Verif.ComputeAgain
