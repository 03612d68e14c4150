import Verif.Model.Splitters
import Verif.Model.Queue

/-!
# Distribution of a computation over processes

`topologies/splitters.py`, `executors/multi_exec_subproc.py`, `executors/multi_exec_async.py`.
A started process is represented by what it receives, paired with its number (`index_process`).
-/

namespace Verif.Distribution
open Verif Verif.Splitters

abbrev Range := Int × Int × Int

/-- `/repo/src/fluidimage/topologies/splitters.py:202-209` and `269-278`
(`_iter_over_new_params_from_ranges` of both splitters): empty ranges are skipped.  The parameters that
are yielded are represented by the range they contain. -/
def iterFromRanges (ranges : List Range) : List Range :=
  ranges.filter (fun sss => rangeLen sss.1 sss.2.1 sss.2.2 ≠ 0)

/-- `/repo/src/fluidimage/topologies/splitters.py:119-125`
(`_iter_over_new_params_from_indices_lists`): empty lists are skipped; the yielded parameters contain the
path of the index file number `idx_process`, here the list written in this file (read back unchanged, C03). -/
def iterFromIndicesLists {ι : Type} (lists : List (List ι)) : List (List ι) :=
  lists.filter (fun l => !l.isEmpty)

/-- `/repo/src/fluidimage/executors/multi_exec_subproc.py:89-96`: the processes are numbered by
`enumerate(splitter.iter_over_new_params())`. -/
def subprocNumbering {β : Type} (params : List β) : List (β × Nat) := params.zipIdx

/-- `/repo/src/fluidimage/executors/multi_exec_async.py:150-158`: the ranges are enumerated first, then
the empty ones are skipped. -/
def asyncRanges (ranges : List Range) : List (Range × Nat) :=
  ranges.zipIdx.filter (fun p => rangeLen p.1.1 p.1.2.1 p.1.2.2 ≠ 0)

/-- `/repo/src/fluidimage/executors/multi_exec_async.py:142-147`: idem for index lists. -/
def asyncIndicesLists {ι : Type} (lists : List (List ι)) : List (List ι × Nat) :=
  lists.zipIdx.filter (fun p => !p.1.isEmpty)

/-- A series computation executed by `MultiExecutorSubproc` in a mode other than "complete"
(splitters.py:181-194, 202-209; multi_exec_subproc.py:89-96): what each process computes. -/
def subprocSeries (start stop step : Int) (n : Nat) : Except PyErr (List (List Int × Nat)) := do
  let ranges ← splitRange start stop step n
  pure ((subprocNumbering (iterFromRanges ranges)).map (fun p => (pyRange p.1.1 p.1.2.1 p.1.2.2, p.2)))

/-- The same with `MultiExecutorAsync` (multi_exec_async.py:149-158). -/
def asyncSeries (start stop step : Int) (n : Nat) : Except PyErr (List (List Int × Nat)) := do
  let ranges ← splitRange start stop step n
  pure ((asyncRanges ranges).map (fun p => (pyRange p.1.1 p.1.2.1 p.1.2.2, p.2)))

/-- Mode "complete" with `MultiExecutorSubproc` (splitters.py:175-180 or 244-249, 108-125). -/
def subprocComplete {ι : Type} (indices : List ι) (n : Nat) : Except PyErr (List (List ι × Nat)) := do
  let lists ← splitList indices n
  pure (subprocNumbering (iterFromIndicesLists lists))

/-- Mode "complete" with `MultiExecutorAsync` (multi_exec_async.py:131-147). -/
def asyncComplete {ι : Type} (indices : List ι) (n : Nat) : Except PyErr (List (List ι × Nat)) := do
  let lists ← splitList indices n
  pure (asyncIndicesLists lists)

/-- Cartesian product of the slicing ranges: the tuples of indices of a serie of images
(`SerieOfArrays.iter_indices` of fluiddyn: first index slowest). -/
def productIndices : List (List Int) → List (List Int)
  | [] => [[]]
  | r :: rs => r.flatMap (fun i => (productIndices rs).map (i :: ·))

/-- Images with `MultiExecutorSubproc`, mode other than "complete" (splitters.py:250-261, 269-278): only
the first slicing tuple is split, the others are kept unchanged in `slicing_str_post`. -/
def subprocImages (start stop step : Int) (others : List Range) (n : Nat) :
    Except PyErr (List (List (List Int) × Nat)) := do
  let ranges ← splitRange start stop step n
  pure ((subprocNumbering (iterFromRanges ranges)).map (fun p =>
    (productIndices (pyRange p.1.1 p.1.2.1 p.1.2.2 :: others.map (fun o => pyRange o.1 o.2.1 o.2.2)), p.2)))

/-! ## Splitting the first queue (`MultiExecutorAsync._start_multiprocess_first_queue`)

The Python code works with shared objects; queues are therefore references (natural numbers) into a
heap, and works hold references. -/

/-- Queues of a work: `None`, one queue, or a tuple/list of queues. -/
inductive Refs where
  | none
  | one (q : Nat)
  | many (qs : List Nat)
  deriving DecidableEq, Repr

/-- `work.input_queue is old_queue` replacements, multi_exec_async.py:89-105. -/
def Refs.replace (old new : Nat) : Refs → Refs
  | .none => .none
  | .one q => .one (if q = old then new else q)
  | .many qs => .many (qs.map (fun q => if q = old then new else q))

structure WorkRefs where
  input : Refs
  output : Refs
  deriving DecidableEq, Repr

def WorkRefs.replace (old new : Nat) (w : WorkRefs) : WorkRefs :=
  ⟨w.input.replace old new, w.output.replace old new⟩

/-- The memory shared by all topologies of the parent process (`copy.copy` of a topology shares the list
of works, the works and the list of queues). -/
structure Mem (κ α : Type) where
  heap : Nat → Dict κ α
  next : Nat                 -- references ≥ next are not allocated
  works : List WorkRefs
  queues : List Nat

/-- What a started process sees: a snapshot of the memory (fork / pickle in `process.start()`), its
number and its `first_queue`. -/
structure Child (κ α : Type) where
  mem : Mem κ α
  firstQueue : Nat
  index : Nat

variable {κ α : Type} [DecidableEq κ]

/-- multi_exec_async.py:107-108: `for key in keys_proc: new_queue[key] = self._first_queue[key]`. -/
def fillQueue (firstQueue : Dict κ α) : List κ → Dict κ α → Except PyErr (Dict κ α)
  | [], q => .ok q
  | k :: ks, q => match firstQueue.get? k with
    | some v => fillQueue firstQueue ks (q.set k v)
    | Option.none => .error .keyError

/-- One iteration of the loop multi_exec_async.py:80-112. `q0` is `topology.first_queue`. -/
def launchOne (firstQueue : Dict κ α) (q0 : Nat) (mem : Mem κ α) (old : Nat) (keysProc : List κ) (idx : Nat) :
    Except PyErr (Mem κ α × Nat × Child κ α) :=
  let new := mem.next
  match fillQueue firstQueue keysProc (Queue.copy (mem.heap q0)) with
  | .error e => .error e
  | .ok content =>
    let mem' : Mem κ α :=
      { heap := fun r => if r = new then content else mem.heap r
        next := mem.next + 1
        works := mem.works.map (WorkRefs.replace old new)
        queues := mem.queues.map (fun q => if q = old then new else q) }
    .ok (mem', new, ⟨mem', new, idx⟩)

/-- The loop multi_exec_async.py:80-112. -/
def launchLoop (firstQueue : Dict κ α) (q0 : Nat) : Mem κ α → Nat → List (List κ × Nat) →
    Except PyErr (List (Child κ α))
  | _, _, [] => .ok []
  | mem, old, (keysProc, idx) :: rest =>
    match launchOne firstQueue q0 mem old keysProc idx with
    | .error e => .error e
    | .ok (mem', old', child) =>
      match launchLoop firstQueue q0 mem' old' rest with
      | .error e => .error e
      | .ok children => .ok (child :: children)

/-- `/repo/src/fluidimage/executors/multi_exec_async.py:68-112` `_start_multiprocess_first_queue`.
`firstQueue` is `self._first_queue`, the copy made in base.py:375 after filling the first queue; `mem` is
the memory at that time, whose first work writes in the queue `q0`. -/
def startFirstQueue (firstQueue : Dict κ α) (n : Nat) (mem : Mem κ α) (q0 : Nat) :
    Except PyErr (List (Child κ α)) :=
  match splitList firstQueue.keys n with
  | .error e => .error e
  | .ok parts =>
    let mem := { mem with heap := fun r => if r = q0 then [] else mem.heap r   -- first_queue.clear()
                          works := mem.works.drop 1 }                           -- del topology.works[0]
    launchLoop firstQueue q0 mem q0 parts.zipIdx

end Verif.Distribution
