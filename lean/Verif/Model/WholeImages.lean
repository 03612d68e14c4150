import Verif.Model.Im2Im
import Verif.Model.Bos
import Verif.Model.Names
import Verif.Model.WholeRun

/-!
# A whole computation on images (image to image, BOS): executors, processes and directory of results

As `Model/WholeRun.lean` for the topologies built on `TopologyBaseFromImages` (`topologies/base.py` 590-655) whose works are a chain:
`topologies/image2image.py` and `topologies/bos.py` (without function "image to image", see C28 for the other case).  Same
simplifications.
-/

namespace Verif.WholeImages
open Verif Verif.Exec Verif.ResultsFiles Verif.Distribution Verif.Complete Verif.WholeRun

/-- What defines a computation: the works before the last one, whether a result can be written, the path of an image
(`str(path_dir_src / name)`), the name of the file of a result, the name of the image of some indices
(`SerieOfArraysFromFiles.compute_name_from_indices`), the name used to know if an image has been computed
(`_get_name_result_from_name`), the indices of the reference which is not computed (`_fix_indices_images`) and the slices of the
serie. -/
structure Computation (V : Type) where
  pre : List (ChainWork Txt V PyErr)
  save : Txt → V → Except PyErr Unit
  path : Txt → V
  fileName : Txt → V → Txt
  nameOf : List Int → Txt
  resultName : Txt → Txt
  reference : Option (List Int)
  first : Range
  others : List Range

variable {V : Type}

/-- The works: the last one saves the results. -/
def Computation.works (K : Computation V) : List (ChainWork Txt V PyErr) :=
  K.pre ++ [⟨true, fun name v => match K.save name v with
    | .error e => .error e
    | .ok _ => .ok v⟩]

/-- `serie.iter_indices()` -/
def Computation.indices (K : Computation V) : List (List Int) :=
  productIndices ((K.first :: K.others).map fun r => pyRange r.1 r.2.1 r.2.2)

/-- `list.remove(i)`, without `ValueError` if `i` is not in the list (bos.py 186-189). -/
def remove {ι : Type} [DecidableEq ι] (l : List ι) (i : ι) : List ι := l.erase i

/-- `_fix_indices_images` (base.py 614-615; bos.py 170-189) -/
def Computation.fix (K : Computation V) (is : List (List Int)) : List (List Int) :=
  match K.reference with
  | none => is
  | some r => remove is r

/-- The images which are computed (base.py 600-612, 626-636). -/
def Computation.toCompute (K : Computation V) (d : Files Txt V) : Mode → List (List Int)
  | .recompute => K.fix K.indices
  | .complete => K.fix (indicesToBeComputed (fun i => K.resultName (K.nameOf i)) K.indices d)

/-- The first queue (base.py 646-651). -/
def Computation.queue (K : Computation V) (is : List (List Int)) : Dict Txt (Except PyErr V) :=
  is.foldl (fun q i => Dict.set q (K.nameOf i) (.ok (K.path (K.nameOf i)))) []

/-- The first queues of the processes of `MultiExecutorAsync`, whose keys are given (multi_exec_async.py 107-108). -/
def fillQueues (q : Dict Txt (Except PyErr V)) : List (List Txt) → Except PyErr (List (Dict Txt (Except PyErr V)))
  | [] => .ok []
  | ks :: rest => match fillQueue q ks [] with
    | .error e => .error e
    | .ok q1 => match fillQueues q rest with
      | .error e => .error e
      | .ok qs => .ok (q1 :: qs)

/-- The first queue of each process.  `MultiExecutorAsync` splits the first queue (multi_exec_async.py 68-112, see
`Distribution.startFirstQueue` for how the queues are replaced).  `MultiExecutorSubproc` splits the first slice, and each process
removes the reference (splitters.py 250-278), or in mode "complete" the list of the indices, which are given to the processes in
files (splitters.py 108-125, 244-249). -/
def Computation.queues (K : Computation V) (d : Files Txt V) (m : Mode) :
    Executor → Except PyErr (List (Dict Txt (Except PyErr V)))
  | .sequential => .ok [K.queue (K.toCompute d m)]
  | .async => .ok [K.queue (K.toCompute d m)]
  | .multiAsync n => match Splitters.splitList (K.queue (K.toCompute d m)).keys n with
    | .error e => .error e
    | .ok parts => fillQueues (K.queue (K.toCompute d m)) parts
  | .multiSubproc n => match m with
    | .recompute => match subprocImages K.first.1 K.first.2.1 K.first.2.2 K.others n with
      | .error e => .error e
      | .ok ps => .ok (ps.map fun p => K.queue (K.fix p.1))
    | .complete => match subprocComplete (K.toCompute d .complete) n with
      | .error e => .error e
      | .ok ps => .ok (ps.map fun p => K.queue p.1)

/-- The files written by a process, in order, with the key of the image. -/
def Computation.saves (K : Computation V) (log : List (Event Txt V PyErr)) : List (Txt × V) :=
  log.filterMap fun e => match e with
    | .call w k v => if w = K.pre.length then match K.save k v with
        | .ok _ => some (k, v)
        | .error _ => none
      else none
    | _ => none

/-- A process with the asynchronous executor which reaches its end, for any limits and any schedule. -/
def Computation.Ended (K : Computation V) (q : Dict Txt (Except PyErr V)) (log : List (Event Txt V PyErr)) : Prop :=
  ∃ c ls s, ARun (chain K.works) c (AState.init (startQueues q) ()) ls s ∧ s.stop = true ∧ log = s.log

/-- A process with the asynchronous executor which is killed at any time, or is stopped by an exception (`stop_if_error`), or has
received the stop signal before, or has not started. -/
def Computation.Killed (K : Computation V) (q : Dict Txt (Except PyErr V)) (log : List (Event Txt V PyErr)) : Prop :=
  ∃ c xls s, XRun (chain K.works) c (XState.init (startQueues q) ()) xls s ∧ log = s.a.log

/-- A process with the sequential executor which reaches its end without exception. -/
def Computation.EndedSeq (K : Computation V) (q : Dict Txt (Except PyErr V)) (log : List (Event Txt V PyErr)) : Prop :=
  ∃ (c : Cfg) (n : Nat) (s : SState Txt V PyErr Unit),
    seqLoop (chain K.works) c n (SState.init (startQueues q) ()) = some s ∧ s.crashed = none ∧ log = s.log

/-- The same, killed at any time or stopped by an exception. -/
def Computation.KilledSeq (K : Computation V) (q : Dict Txt (Except PyErr V)) (log : List (Event Txt V PyErr)) : Prop :=
  ∃ (c : Cfg) (n : Nat) (s : SState Txt V PyErr Unit),
    seqLoop (chain K.works) c n (SState.init (startQueues q) ()) = some s ∧ log <+: s.log

/-- The directory after some files have been written. -/
def Computation.write (K : Computation V) (d : Files Txt V) (l : List (Txt × V)) : Files Txt V :=
  l.foldl (fun d x => Complete.save d (K.fileName x.1 x.2) x.2) d

/-- What a process does, when it reaches its end. -/
def Computation.process (K : Computation V) : Executor → Dict Txt (Except PyErr V) → List (Event Txt V PyErr) → Prop
  | .sequential => K.EndedSeq
  | _ => K.Ended

/-- What a process does, when it is killed or not. -/
def Computation.processKilled (K : Computation V) : Executor → Dict Txt (Except PyErr V) → List (Event Txt V PyErr) → Prop
  | .sequential => K.KilledSeq
  | _ => fun q log => K.Killed q log ∨ K.Ended q log

/-- A computation from the directory `d` to the directory `d'`: each of its processes does `p` with its first queue. -/
def Computation.Runs (K : Computation V) (p : Dict Txt (Except PyErr V) → List (Event Txt V PyErr) → Prop) (x : Executor) (m : Mode)
    (d d' : Files Txt V) : Prop :=
  ∃ qs, K.queues d m x = .ok qs ∧ ∃ logs l, List.Forall₂ p qs logs ∧ Interleaving (logs.map K.saves) l ∧ d' = K.write d l

/-- Several interrupted computations in the same directory, each one with any executor satisfying `ok` and any mode. -/
inductive Computation.Interrupted (K : Computation V) (ok : Executor → Prop) (d : Files Txt V) : Files Txt V → Prop where
  | none : Interrupted K ok d d
  | more (d1 d2 : Files Txt V) (h : Interrupted K ok d d1) (x : Executor) (m : Mode) (hx : ok x)
      (hr : K.Runs (K.processKilled x) x m d1 d2) : Interrupted K ok d d2

/-- A computation which reaches its end. -/
def Computation.Complete (K : Computation V) (x : Executor) (m : Mode) (d d' : Files Txt V) : Prop :=
  K.Runs (K.process x) x m d d'

/-! ## Image to image -/

/-- topologies/image2image.py 80-129 -/
def im2im {α : Type} (imread : Txt → Except PyErr α) (f : Im2Im.Fun α) (imsave : Txt → Im2Im.Obj α → Except PyErr Unit) (dir : Txt)
    (nameOf : List Int → Txt) (first : Range) (others : List Range) : Computation (Im2Im.Obj α) where
  pre := [⟨true, Im2Im.readWork imread⟩, ⟨false, Im2Im.im2imWork f⟩]
  save := fun name v => imsave (pathName name) v
  path := fun name => .text (dir ++ ['/'] ++ name)
  fileName := fun name _ => pathName name
  nameOf := nameOf
  resultName := id
  reference := none
  first := first
  others := others

/-! ## BOS -/

/-- The values in the queues of the topology. -/
inductive BosVal (α ρ : Type) where
  | path (p : Txt)
  | image (a : α) (name : Txt)
  | field (name : Txt) (r : ρ)
deriving DecidableEq, Repr

/-- topologies/bos.py 36-38 `_imread` -/
def bosRead {α ρ : Type} (imread : Txt → Except PyErr α) (_name : Txt) : BosVal α ρ → Except PyErr (BosVal α ρ)
  | .path p => match imread p with
    | .error e => .error e
    | .ok a => .ok (.image a (pathName p))
  | _ => .error .typeError

/-- works/bos.py 78-91: `calcul` is the computation of the PIV of the couple of the reference and of the image; the name of the couple
is the one of the image (data_objects/piv.py 207-211). -/
def bosWork {α ρ : Type} (calcul : α → Txt → Except PyErr ρ) (_name : Txt) : BosVal α ρ → Except PyErr (BosVal α ρ)
  | .image a name => match calcul a name with
    | .error e => .error e
    | .ok r => .ok (.field name r)
  | _ => .error .typeError

/-- topologies/bos.py 157-160 `save_bos_object`; `write` tells if the file can be written. -/
def bosSave {α ρ : Type} (write : ρ → Except PyErr Unit) (_name : Txt) : BosVal α ρ → Except PyErr Unit
  | .field _ r => write r
  | _ => .error .attributeError

/-- data_objects/piv.py 352-363: the name of the file. -/
def bosFile {α ρ : Type} (base : Txt) (ext : Option Txt) (_name : Txt) : BosVal α ρ → Txt
  | .field name _ => Names.nameBos name base ext
  | _ => []

/-- The indices of the reference, if it is in the serie (bos.py 170-189). -/
def bosReference (S : Bos.Serie (List Int)) (ref : Bos.FilePath) : Option (List Int) :=
  if S.dir.isPrefixOf (ref.dirs ++ [ref.name]) && S.baseName.isPrefixOf ref.name then
    match S.indicesOf ref.name with
    | .error _ => none
    | .ok i => some i
  else none

/-- topologies/bos.py 93-189, works/bos.py.  The reference is the same for all the processes (bos.py 22-33 `SplitterBos`). -/
def bos {α ρ : Type} (imread : Txt → Except PyErr α) (calcul : α → Txt → Except PyErr ρ) (write : ρ → Except PyErr Unit) (dir : Txt)
    (S : Bos.Serie (List Int)) (ext : Option Txt) (ref : Bos.FilePath) (first : Range) (others : List Range) :
    Computation (BosVal α ρ) where
  pre := [⟨true, bosRead imread⟩, ⟨false, bosWork calcul⟩]
  save := bosSave write
  path := fun name => .path (dir ++ ['/'] ++ name)
  fileName := bosFile S.baseName ext
  nameOf := S.nameOf
  resultName := fun name => Names.nameBos name S.baseName ext
  reference := bosReference S ref
  first := first
  others := others

end Verif.WholeImages
