import Verif.Py.Text

/-!
# Model of `prepare_path_dir_result` (`topologies/base.py:46-104`)

The file system is the finite list of the existing paths, each with a Boolean telling whether it is a
directory.  A path is a text (`List Char`).
-/

namespace Verif.ResultDir
open Verif Verif.Text

abbrev Path := List Char
abbrev FS := List (Path × Bool)

/-- `os.path.exists` -/
def FS.exists (fs : FS) (p : Path) : Bool := fs.any (fun e => decide (e.1 = p))

def FS.isDir (fs : FS) (p : Path) : Bool := fs.any (fun e => decide (e.1 = p) && e.2)

/-- `/repo/src/fluidimage/topologies/base.py:46` `how_values`. -/
def howValues : List String := ["ask", "new_dir", "complete", "recompute", "from_path_indices"]

/-- `answer.lower()`.  Only the ASCII part of `str.lower` is modelled; no other character has an ASCII
letter among n, c, r, s as its lower case. -/
def lower (s : String) : String := String.ofList (s.toList.map Char.toLower)

/-- base.py:72-83: ask until the lower-cased answer is accepted.  `answers` is what the user types, one
element per query; when there is nothing more to read, `input` raises `EOFError`. Returns the accepted
answer (as typed). -/
def askLoop : List String → Except PyErr String
  | [] => .error .eofError
  | a :: answers => if lower a ∈ ["n", "c", "r", "s"] then .ok a else askLoop answers

/-- base.py:85-94: the mode chosen by an accepted answer (compared as typed). -/
def modeOfAnswer (answer : String) (how : String) : Except PyErr String :=
  if answer = "s" then .error .systemExit
  else if answer = "n" then .ok "new_dir"
  else if answer = "c" then .ok "complete"
  else if answer = "r" then .ok "recompute"
  else .ok how

/-- base.py:97-100: `while os.path.exists(path_dir_result + str(i)): i += 1`.  The fuel is a bound on the
number of iterations; `none` means that it was not sufficient (never happens with the fuel used in
`prepare`, see `C05_new_dir_search_terminates`). -/
def searchFree (fs : FS) (base : Path) : Nat → Nat → Option Nat
  | 0, _ => none
  | fuel + 1, i => if fs.exists (base ++ natStr i) then searchFree fs base fuel (i + 1) else some i

/-- `Path(path).mkdir(exist_ok=True)`, base.py:102-103.  `parentOk p` tells whether the parent of `p` is
an existing directory. -/
def mkdirExistOk (parentOk : Path → Bool) (fs : FS) (p : Path) : Except PyErr FS :=
  if fs.exists p then
    if fs.isDir p then .ok fs else .error .fileExistsError
  else if parentOk p then .ok (fs ++ [(p, true)])
  else .error .fileNotFoundError

/-- `params.saving.path` when it is not `None`: a text or a `pathlib.Path` object. -/
inductive SavingPath where
  | str (p : Path)
  | obj (p : Path)
deriving DecidableEq, Repr

def SavingPath.path : SavingPath → Path
  | .str p => p
  | .obj p => p

/-- base.py:62-65: the base directory. -/
def baseDir (pathInput : Path) (pathSaving : Option SavingPath) (postfixSaving : Path) : Path :=
  match pathSaving with
  | some p => p.path
  | none => pathInput ++ ['.'] ++ postfixSaving

/-- base.py:62-65: is the base directory a text (`path_dir_input` has been converted in a text)? -/
def isStr : Option SavingPath → Bool
  | none => true
  | some (.str _) => true
  | some (.obj _) => false

/-- base.py:67-94 when the directory exists: the mode, after asking the user if it is "ask". -/
def chooseMode (answers : List String) (howSaving : String) : Except PyErr String :=
  if howSaving = "ask" then
    match askLoop answers with
    | .error e => .error e
    | .ok answer => modeOfAnswer answer howSaving
  else .ok howSaving

/-- base.py:67-100: the path and the mode.  `str` tells whether the path is a text: `path_dir_result + str(i)` is a
`TypeError` for a `Path` object. -/
def choosePath (fs : FS) (answers : List String) (path : Path) (str : Bool) (howSaving : String) :
    Except PyErr (Path × String) :=
  if fs.exists path = false then
    .ok (path, if howSaving = "ask" then "recompute" else howSaving)
  else
    match chooseMode answers howSaving with
    | .error e => .error e
    | .ok how =>
      if how = "new_dir" then
        if str = false then .error .typeError else
        match searchFree fs path (fs.length + 1) 0 with
        | some i => .ok (path ++ natStr i, how)
        | none => .error .runtimeError   -- unreachable (C05_new_dir_search_terminates)
      else .ok (path, how)

/-- `/repo/src/fluidimage/topologies/base.py:49-104` `prepare_path_dir_result`: the returned path and
mode, and the file system afterwards. -/
def prepare (parentOk : Path → Bool) (fs : FS) (answers : List String) (pathInput : Path)
    (pathSaving : Option SavingPath) (postfixSaving : Path) (howSaving : String) :
    Except PyErr (Path × String × FS) :=
  if howSaving ∉ howValues then .error .valueError
  else
    match choosePath fs answers (baseDir pathInput pathSaving postfixSaving) (isStr pathSaving) howSaving with
    | .error e => .error e
    | .ok (path, how) =>
      match mkdirExistOk parentOk fs path with
      | .error e => .error e
      | .ok fs' => .ok (path, how, fs')

/-- executors/multi_exec_subproc.py:63-64 and topologies/splitters.py:114: the mode in the parameters of the sub-processes;
`how` is the mode of the topology of the main process.  `aware`: the topology computes the indices which have to be computed
(`compute_indices_to_be_computed`). -/
def childHow (aware : Bool) (how : String) : String :=
  if how = "complete" ∧ aware = true then "from_path_indices" else how

/-- The result directory of a sub-process started by `MultiExecutorSubproc`: its parameters are those of the topology of the
main process (multi_exec_subproc.py:36), where `saving.path` has been replaced (base.py:298) by the `path` of the result
directory of the main process; it is read as a text or as a path (`str`).  (multi_exec_subproc.py:66-67 does nothing:
`hasattr(self.topology, "")`.) -/
def prepareChild (parentOk : Path → Bool) (fs : FS) (answers : List String) (pathInput path : Path) (str : Bool)
    (postfixSaving : Path) (aware : Bool) (how : String) : Except PyErr (Path × String × FS) :=
  prepare parentOk fs answers pathInput (some (if str then .str path else .obj path)) postfixSaving (childHow aware how)

/-- executors/servers.py:181-187: the mode in the parameters of the topology of a server; `how` is `params.saving.how` of the topology of the
main process (which is not changed by the answer of the user). -/
def serverHow (how : String) : String := if how = "ask" then "complete" else how

/-- executors/servers.py:52-66, 189: the result directory of the topology which is created in a server: its parameters are those of the
topology of the main process, where `saving.path` is the `Path` of the result directory (base.py:298). -/
def prepareServer (parentOk : Path → Bool) (fs : FS) (answers : List String) (pathInput path postfixSaving : Path) (how : String) :
    Except PyErr (Path × String × FS) :=
  prepare parentOk fs answers pathInput (some (.obj path)) postfixSaving (serverHow how)

end Verif.ResultDir
