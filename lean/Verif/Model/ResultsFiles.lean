import Verif.Py.Text

/-!
# Model of the files listing the results (`results*.txt`, `len_results*.txt`)

`/repo/src/fluidimage/executors/base.py:380-414` (`_init_results_log`, `_save_results_names`), 562-567 (the
multi-process executor reads the names back), and `exec_async_seq_for_multi.py:76-100`.
-/

namespace Verif.ResultsFiles
open Verif Verif.Text

abbrev Txt := List Char

/-- An element of `topology.results`: a string (path of a file), a `pathlib.Path` (given by its `name`), or something
else (given by its `str`). -/
inductive Res where
  | str (p : Txt)
  | path (name : Txt)
  | other (s : Txt)
deriving DecidableEq, Repr

/-- `Path(p).name` (POSIX): last component, the components which are empty or `.` being ignored. -/
def pathName (p : Txt) : Txt :=
  (((splitChar '/' p).filter (fun c => !c.isEmpty && c != ['.'])).getLast?).getD []

def mapE {α β : Type} (f : α → Except PyErr β) : List α → Except PyErr (List β)
  | [] => .ok []
  | a :: as =>
    match f a with
    | .error e => .error e
    | .ok b =>
      match mapE f as with
      | .error e => .error e
      | .ok bs => .ok (b :: bs)

/-- `Path(path).name` for an element of `results`. -/
def viaPath : Res → Except PyErr Txt
  | .str p => .ok (pathName p)
  | .path n => .ok n
  | .other _ => .error .typeError

/-- `_r.name` for an element of `results`. -/
def viaName : Res → Except PyErr Txt
  | .path n => .ok n
  | _ => .error .attributeError

/-- `str(_r)`; the text of a `Path` is simplified to its name. -/
def viaStr : Res → Except PyErr Txt
  | .str p => .ok p
  | .path n => .ok n
  | .other s => .ok s

/-- base.py:402-407: the names, the rule being chosen with the first new result. -/
def batchNames : List Res → Except PyErr (List Txt)
  | [] => .ok []
  | r :: rs =>
    match r with
    | .str _ => mapE viaPath (r :: rs)
    | .path _ => mapE viaName (r :: rs)
    | .other _ => mapE viaStr (r :: rs)

/-- The two files (`none`: does not exist). -/
structure Files where
  len : Option Txt
  names : Option Txt
deriving DecidableEq, Repr

/-- `known`: `topology.results`; `saved`: `_len_saved_results`. -/
structure State where
  known : List Res
  saved : Nat
  files : Files
deriving DecidableEq, Repr

/-- State of the sub-executors after `_init_compute` (`exec_async_seq_for_multi.py:79-82`: `touch`, then "0\n"). -/
def initSub : State := ⟨[], 0, ⟨some ['0', '\n'], some []⟩⟩

/-- State of the sequential executor after `_init_results_log`: no file. -/
def initSeq : State := ⟨[], 0, ⟨none, none⟩⟩

/-- `open(path, "a")` then `write`. -/
def appendTo (f : Option Txt) (t : Txt) : Option Txt := some (f.getD [] ++ t)

/-- base.py:393-411 `_save_results_names`. -/
def save (s : State) : Except PyErr State :=
  let new := s.known.drop s.saved
  let len := s.known.length
  let files := { s.files with len := some (natStr len ++ ['\n']) }
  if new.isEmpty then .ok { s with saved := len, files := files }
  else
    match batchNames new with
    | .error e => .error e
    | .ok names =>
      .ok { s with saved := len, files := { files with names := appendTo files.names (join ['\n'] names ++ ['\n']) } }

/-- What can be on the disk if the process is killed during `save`: the files before, the first file truncated
(`open(…, "w")`) or partly written, or the first file written and a part of the new names appended. -/
inductive Crash (s : State) : Files → Prop
  | before : Crash s s.files
  | len (t rest : Txt) : natStr s.known.length ++ ['\n'] = t ++ rest → Crash s { s.files with len := some t }
  | names (names : List Txt) (t rest : Txt) : (s.known.drop s.saved).isEmpty = false →
      batchNames (s.known.drop s.saved) = .ok names → join ['\n'] names ++ ['\n'] = t ++ rest →
      Crash s { s.files with len := some (natStr s.known.length ++ ['\n']), names := appendTo s.files.names t }

/-- Histories: new results, and saves, in any order. -/
inductive Op where
  | result (r : Res)
  | save
deriving DecidableEq, Repr

def apply (s : State) : Op → Except PyErr State
  | .result r => .ok { s with known := s.known ++ [r] }
  | .save => save s

def history (s : State) : List Op → Except PyErr State
  | [] => .ok s
  | op :: ops =>
    match apply s op with
    | .error e => .error e
    | .ok s' => history s' ops

/-- `f"{idx:03}"` -/
def pad3 (idx : Nat) : Txt := List.replicate (3 - (natStr idx).length) '0' ++ natStr idx

/-- "results_" -/
def resultsPrefix : Txt := ['r', 'e', 's', 'u', 'l', 't', 's', '_']

/-- ".txt" -/
def dotTxt : Txt := ['.', 't', 'x', 't']

/-- base.py:385: name of the file with the names of the results of process `idx`. -/
def resultsName (idx : Nat) : Txt := resultsPrefix ++ pad3 idx ++ dotTxt

/-- base.py:387-389: name of the other file. -/
def lenName (idx : Nat) : Txt := ['l', 'e', 'n', '_'] ++ resultsPrefix ++ pad3 idx ++ dotTxt

/-- `fnmatch(name, "results_*.txt")` -/
def globResults (name : Txt) : Bool :=
  resultsPrefix.isPrefixOf name && dotTxt.isSuffixOf (name.drop resultsPrefix.length)

/-- base.py:562-567: the results of the multi-process executor; `dir` lists the files of the job directory (name and
content) in the order in which `glob` yields them. -/
def readBack (dir : List (Txt × Txt)) : List Txt :=
  (dir.filter (fun f => globResults f.1)).flatMap (fun f => (fileLines f.2).map strip)

end Verif.ResultsFiles
