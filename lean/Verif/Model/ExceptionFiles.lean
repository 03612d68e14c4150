import Verif.Model.Executor
import Verif.Model.ResultsFiles

/-!
# Model of the files in which the errors of a computation are recorded

`/repo/src/fluidimage/executors/base.py` 320-344 (`ExecutorBase.log_exception`), called by `exec_sequential.py` 62, `exec_async.py` 247, 300,
`exec_async_sequential.py` 67 and `exec_async_multiproc.py` 125.  The directory is `path_dir_exceptions` (base.py 101; for the processes of
`multi_exec_async`, `exec_async_seq_for_multi.py` 73-74: the one of the log files, shared by the processes).

Not modelled: the line printed by `log_error`; the text of the traceback, which is a function `format` of the exception; the errors of the file
system other than the two which depend on the name (a directory in the name, a name which is too long; the length is counted in characters, as for
a name in ASCII).
-/

namespace Verif.ExceptionFiles
open Verif Verif.Exec Verif.ResultsFiles

/-- `/repo/src/fluidimage/topologies/base.py` 144: `self.name.replace(" ", "_")` -/
def noSpace (name : Txt) : Txt := name.map fun c => if c = ' ' then '_' else c

/-- base.py 322: `f"exception_{work_name}_{key}.txt"` -/
def fileName (work key : Txt) : Txt := "exception_".toList ++ work ++ "_".toList ++ key ++ ".txt".toList

/-- base.py 341-342 -/
def fileText (work key trace : Txt) : Txt :=
  "Exception for work ".toList ++ work ++ ", key ".toList ++ key ++ ":\n".toList ++ trace

/-- `path_dir_exceptions`: whether the directory exists, and its files. -/
structure Errors where
  dir : Bool
  files : Dict Txt Txt
deriving DecidableEq

/-- The state before the computation: the directory has a name which is not used (base.py 84-101). -/
def Errors.start : Errors := ⟨false, []⟩

/-- base.py 339: `open(path_log, "w")`: a name with "/" is in a directory which does not exist; the file systems have a limit (255 on Linux) for the
length of a name. -/
def openError (limit : Nat) (name : Txt) : Option PyErr :=
  if '/' ∈ name then some .fileNotFoundError else if limit < name.length then some .osError else none

/-- base.py 320-344 -/
def logException (limit : Nat) (d : Errors) (work key trace : Txt) : Errors × Option PyErr :=
  match openError limit (fileName work key) with
  | some e => ({ d with dir := true }, some e)
  | none => (⟨true, d.files.set (fileName work key) (fileText work key trace)⟩, none)

/-- What the executors do for the events of a computation: `log_exception` is called with `work.name_no_space` when a function has raised, and an
error of `log_exception` escapes from the `except` clause, then from the computation. `names`: the names of the works. -/
def record {α ε : Type} (limit : Nat) (names : List Txt) (format : ε → Txt) : List (Event Txt α ε) → Errors → Errors × Option PyErr
  | [], d => (d, none)
  | .failed w k e :: l, d =>
    match logException limit d (noSpace (names.getD w [])) k (format e) with
    | (d, some err) => (d, some err)
    | (d, none) => record limit names format l d
  | _ :: l, d => record limit names format l d

/-- The names of the works of the topologies which can fail for an item ("one shot" works are executed before the computation):
`/repo/src/fluidimage/topologies/piv.py`, `preproc.py`, `bos.py`, `surface_tracking.py`, `image2image.py`, `mean.py`, `example.py` (`add_work`). -/
def shipped : List (List Txt) :=
  [["read array", "image2image", "make couples of arrays", "compute piv", "save piv"].map String.toList,
   ["imread", "image2image", "make subsets of arrays", "preproc a subset of arrays", "save images"].map String.toList,
   ["read array", "image2image", "compute bos", "save bos"].map String.toList,
   ["read_array", "image2image", "process_frame", "create_couple", "correct_couple_of_phases", "calcul_height", "set_borders_zero",
    "save"].map String.toList,
   ["read_array", "im2im", "save"].map String.toList,
   ["read_array", "main"].map String.toList,
   ["fill names couples", "read array", "fill couples arrays", "cpu1", "cpu2", "save"].map String.toList]

end Verif.ExceptionFiles
