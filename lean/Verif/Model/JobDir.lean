import Verif.Model.ResultDir

/-!
# Model of the job directories and lock files of the executors

`/repo/src/fluidimage/executors/base.py:85-102` (`_init_log_path`), 244-278 (`_save_lock_file`, `_release_lock`,
`_save_job_data`), 472-476 (`_init_log_path` of the multi-process executors; the executors based on servers have the
same method, `exec_async_servers.py:48-52`).

Paths are relative to the result directory, which exists.  Only directories, lock files and `time_end.txt` files are
represented: a lock file (an end file) is represented by its directory.  The log files are not modelled.
-/

namespace Verif.JobDir
open Verif Verif.Text Verif.ResultDir

/-- The result directory. -/
structure Fs where
  tree : FS
  locks : List Path
  ends : List Path
deriving DecidableEq, Repr

def jobDir (p : Path) : Path := ['j', 'o', 'b', '_'] ++ p
def logDir (p : Path) : Path := ['l', 'o', 'g', '_'] ++ p

/-- base.py:85-98 `_init_log_path`: the postfix and the directory of the lock file.  `x` is
`f"{time_start_str}_{os.getpid()}"`. -/
def initLogPath (fs : Fs) (x : Path) : Except PyErr (Path × Path) :=
  if fs.tree.exists (jobDir x) then
    match searchFree fs.tree (logDir x) (fs.tree.length + 1) 1 with
    | some i => .ok (x ++ natStr i, logDir x ++ natStr i)
    | none => .error .runtimeError     -- unreachable (`C19_search_terminates`)
  else .ok (x, jobDir x)

/-- State of an executor. -/
inductive Phase where
  | built | running | failed | ended
deriving DecidableEq, Repr

structure Exe where
  pfx : Path
  lockDir : Path
  phase : Phase
deriving DecidableEq, Repr

/-- Creation of an executor (base.py:130); `multi`: the executors which create their log directory (base.py:472-476). -/
def build (fs : Fs) (multi : Bool) (x : Path) : Except PyErr (Fs × Exe) :=
  match initLogPath fs x with
  | .error e => .error e
  | .ok (p, lockDir) =>
    if multi then
      match mkdirExistOk (fun _ => true) fs.tree (logDir p) with
      | .error e => .error e
      | .ok tree => .ok ({ fs with tree := tree }, ⟨p, lockDir, .built⟩)
    else .ok (fs, ⟨p, lockDir, .built⟩)

/-- base.py:244-256 `_save_lock_file`. -/
def saveLock (fs : Fs) (lockDir : Path) : Except PyErr Fs :=
  if lockDir ∈ fs.locks then .error .runtimeError
  else if fs.tree.isDir lockDir then .ok { fs with locks := fs.locks ++ [lockDir] }
  else .error .fileNotFoundError

/-- base.py:267-270 `_save_job_data` (the beginning of `compute`).  Returns the file system, also when an exception is
raised. -/
def start (fs : Fs) (e : Exe) : Fs × Option PyErr :=
  if fs.tree.exists (jobDir e.pfx) then (fs, some .fileExistsError)
  else
    let fs := { fs with tree := fs.tree ++ [(jobDir e.pfx, true)] }
    match saveLock fs e.lockDir with
    | .error err => (fs, some err)
    | .ok fs => (fs, none)

/-- base.py:260-265 `_release_lock`: called at the end of `compute` and when the interpreter exits. -/
def releaseLock (fs : Fs) (lockDir : Path) : Fs :=
  if lockDir ∈ fs.locks then
    { fs with locks := fs.locks.filter (fun d => decide (d ≠ lockDir)), ends := fs.ends ++ [lockDir] }
  else fs

/-- The executors created in a result directory. -/
structure State where
  fs : Fs
  exes : List Exe
deriving DecidableEq, Repr

inductive Op where
  | build (multi : Bool) (x : Path)
  | start (i : Nat)
  | release (i : Nat)
deriving DecidableEq, Repr

/-- One operation; `none` if it is not possible (the executor does not exist, or is not in the right phase); an
exception is returned with the state it leaves. -/
def step (s : State) : Op → Option (State × Option PyErr)
  | .build multi x =>
    match build s.fs multi x with
    | .error e => some (s, some e)
    | .ok (fs, e) => some (⟨fs, s.exes ++ [e]⟩, none)
  | .start i =>
    match s.exes[i]? with
    | none => none
    | some e =>
      if e.phase = .built then
        match start s.fs e with
        | (fs, some err) => some (⟨fs, s.exes.set i { e with phase := .failed }⟩, some err)
        | (fs, none) => some (⟨fs, s.exes.set i { e with phase := .running }⟩, none)
      else none
  | .release i =>
    match s.exes[i]? with
    | none => none
    | some e =>
      if e.phase = .running ∨ e.phase = .ended then
        some (⟨releaseLock s.fs e.lockDir, s.exes.set i { e with phase := .ended }⟩, none)
      else none

/-- Reachable states. -/
inductive Reach (tree : FS) : State → Prop
  | init : Reach tree ⟨⟨tree, [], []⟩, []⟩
  | step {s s' : State} {op : Op} {r : Option PyErr} : Reach tree s → step s op = some (s', r) → Reach tree s'

end Verif.JobDir
