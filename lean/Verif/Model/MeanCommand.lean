import Verif.Model.Mean
import Verif.Model.ResultDir

/-!
# Model of the command `fluidimage-mean` (`topologies/mean.py:162-271`)

The disk is the list of the existing paths (`ResultDir.FS`) with the images stored in some of them.  Simplifications: the paths are
texts in the normal form of `pathlib` (no final "/", no "/./", no "//"); the images have `b`-bit unsigned pixels (8 or 16: the PNG files
contain exactly the array which has been saved); the files of the job (logs, parameters, temporary sums) are in a new directory inside of the
directory of results and they are not part of the disk of the model; when the command raises, the state of the disk is not given.
-/

namespace Verif.MeanCommand
open Verif Verif.Mean Verif.ResultDir

/-- The existing paths and the images. -/
structure Disk (π : Type) where
  fs : FS
  image : Path → Option (Img π)

/-- mean.py:192-244 `parse_args`: the arguments which are used (`-v` is not used). `version` is the number of `-V`. -/
structure Args where
  version : Nat
  executor : Option String
  nbMaxWorkers : Option Int
  output : Option Path

/-- `SerieOfArraysFromFiles(path, str_subset)` (fluiddyn, not modelled): the directory and the names of the files of the serie (mean.py:61-62,
topologies/base.py:628, 642). -/
structure Serie where
  pathDir : Path
  names : List Path

/-- mean.py:258-262: the executor. -/
def chooseExecutor (a : Args) : String :=
  match a.executor with
  | some e => e
  | none => if a.nbMaxWorkers = some 1 then "exec_sequential" else "exec_async_sequential"

/-- `path / name`. -/
def joinPath (dir name : Path) : Path := dir ++ '/' :: name

/-- `path.name`: what follows the last "/"; the name of "." is empty. -/
def nameOf (p : Path) : Path := if p = ['.'] then [] else (p.reverse.takeWhile (fun c => c ≠ '/')).reverse

/-- What precedes the name (with the "/"). -/
def prefixOf (p : Path) : Path := (p.reverse.dropWhile (fun c => c ≠ '/')).reverse

/-- `path.with_name(name)` (Python 3.9-3.13): a path with an empty name has no new name. -/
def withName (p name : Path) : Except PyErr Path :=
  if nameOf p = [] then .error .valueError else .ok (prefixOf p ++ name)

/-- mean.py:180-182: the path of the mean image. -/
def pathResult (dir : Path) : Except PyErr Path := withName dir (nameOf dir ++ ['.', 'p', 'n', 'g'])

/-- topologies/base.py:595-611, 617-650: the names and the paths of the images which are put in the queue of the paths. -/
def queuePaths (fs : FS) (how : String) (dir : Path) (serie : Serie) : List (Path × Path) :=
  let names := if how = "complete" then serie.names.filter (fun name => !fs.exists (joinPath dir name)) else serie.names
  names.map (fun name => (name, joinPath serie.pathDir name))

/-- `imread`: a path without image can not be read. -/
def Disk.imread {π : Type} (d : Disk π) (p : Path) : Except PyErr (Img π) :=
  match d.image p with
  | some im => .ok im
  | none => .error .osError

/-- mean.py:184-185: `im.save(path, "PNG")`. -/
def Disk.save {π : Type} (d : Disk π) (p : Path) (im : Img π) : Except PyErr (Disk π) :=
  if d.fs.isDir p then .error .osError
  else .ok ⟨if d.fs.exists p then d.fs else d.fs ++ [(p, false)], fun q => if q = p then some im else d.image q⟩

/-- What the execution of the works leaves: the temporary files of the processes (in the order of their names) and the results. -/
structure Job (π : Type) where
  files : List (Img π × Nat)
  results : List Nat

/-- mean.py:162-186 `final_seq_work`. -/
def finish {π : Type} (rnd : ℚ → ℚ) (b : Nat) (d : Disk π) (dir : Path) (j : Job π) : Except PyErr (Disk π) :=
  match finalSeqWork rnd b j.files j.results with
  | .error e => .error e
  | .ok (mean, _) =>
    match pathResult dir with
    | .error e => .error e
    | .ok p => d.save p mean

/-- mean.py:250-271 `main`, the constructor of the topology (mean.py:59-100: the first image is read) and its method `compute`
(topologies/base.py:365-394).  `installed`: the names of the executors (executors/__init__.py:88-90); `job executor d paths`: what the
execution of the works by this executor leaves. -/
def command {π : Type} (rnd : ℚ → ℚ) (b : Nat) (parentOk : Path → Bool) (installed : List String)
    (job : String → Disk π → List (Path × Path) → Job π) (a : Args) (serie : Serie) (answers : List String) (d : Disk π) : Except PyErr (Disk π) :=
  if a.version ≠ 0 then .ok d
  else
    match prepare parentOk d.fs answers serie.pathDir (a.output.map .str) ['m', 'e', 'a', 'n'] "ask" with
    | .error e => .error e
    | .ok (dir, how, fs) =>
      match serie.names with
      | [] => .error .indexError
      | first :: _ =>
        match d.imread (joinPath serie.pathDir first) with
        | .error e => .error e
        | .ok _ =>
          if chooseExecutor a ∉ installed then .error .notImplementedError
          else finish rnd b ⟨fs, d.image⟩ dir (job (chooseExecutor a) ⟨fs, d.image⟩ (queuePaths fs how dir serie))

end Verif.MeanCommand
