import Verif.Model.Multi
import Verif.Model.ResultsFiles
import Verif.Model.JobDir
import Mathlib.Data.List.Sort

/-!
# Model of the counting of the results while a computation runs

* the file `len_results*.txt` of an executor, as the other processes see it: `/repo/src/fluidimage/executors/base.py`
  lines 393-399 (`_save_results_names`) and `exec_async_seq_for_multi.py:76-82`.  `open(path, "w")` first truncates the
  file (or creates it); the few characters of the number are then written at once, when the file is closed;
* the loop of the multi-process executors which reads these files (base.py:514-560);
* the monitoring application (`/repo/src/fluidimage/gui/monitor.py:109-180, 251-258`).

The widgets, the parameters, the durations and the names of the directories other than `job_*` are not modelled.
-/

namespace Verif.Monitor
open Verif Verif.Text Verif.ResultsFiles Verif.Multi

/-- What the process of an executor does with its results and the file `len_results*.txt`. -/
inductive PEv where
  /-- `topology.results.append(…)` (possibly in a thread, so at any time) -/
  | result
  /-- base.py:396-398: `_len_saved_results = len(results)` and `open(path, "w")` -/
  | openW
  /-- base.py:399: the number is written -/
  | write
deriving DecidableEq, Repr

/-- State of one executor: number of results, content of the file (`none`: it does not exist), the number which is
about to be written, if the file has been opened, and the number last written. -/
structure Proc where
  known : Nat
  file : Option Txt
  pending : Option Nat
  saved : Nat
deriving DecidableEq, Repr

/-- Before the first event. -/
def Proc.init : Proc := ⟨0, none, none, 0⟩

/-- `f"{n}\n"` -/
def lenText (n : Nat) : Txt := natStr n ++ ['\n']

/-- One event; `openW` while the file is open, or `write` while it is not, do not occur and change nothing. -/
def Proc.step (p : Proc) : PEv → Proc
  | .result => { p with known := p.known + 1 }
  | .openW =>
    match p.pending with
    | none => { p with file := some [], pending := some p.known }
    | some _ => p
  | .write =>
    match p.pending with
    | none => p
    | some n => { p with file := some (lenText n), pending := none, saved := n }

def Proc.run (p : Proc) (evs : List PEv) : Proc := evs.foldl Proc.step p

/-- base.py:546-552: the number of results of one process, given the previous one (`if content: … = int(content)`). -/
def progressRead (file : Option Txt) (old : Int) : Except PyErr Int :=
  match file with
  | none => .ok old
  | some [] => .ok old
  | some (c :: cs) => pyInt (c :: cs)

/-- base.py:527-552: the readings of one turn of the loop, for the processes of `running_processes`. -/
def progressTurn (files : Nat → Option Txt) : List Nat → (Nat → Int) → Except PyErr (Nat → Int)
  | [], seen => .ok seen
  | i :: is, seen =>
    match progressRead (files i) (seen i) with
    | .error e => .error e
    | .ok v => progressTurn files is (fun j => if j = i then v else seen j)

/-- base.py:525-560: the loop with `num_results_vs_idx_process` (`seen`).  `files r i`: what the reading of the file of
process `i` gives in turn `r`.  Returns
`seen` after each turn, and whether the loop has ended (`fuel` bounds the number of turns).  The `i`-th process started
is the one which writes `len_results_{i:03}.txt` (`multi_exec_async.py:130-150` skips empty parts, which are the last
ones). -/
def progressLoop (poll : Nat → Nat → Option Int) (files : Nat → Nat → Option Txt) :
    Nat → Nat → Multi.State → (Nat → Int) → Except PyErr (List (Nat → Int) × Bool)
  | fuel, r, s, seen =>
    match s.running with
    | [] => .ok ([], true)
    | _ :: _ =>
      match fuel with
      | 0 => .ok ([], false)
      | fuel + 1 =>
        match progressTurn (files r) s.running seen with
        | .error e => .error e
        | .ok seen' =>
          match progressLoop poll files fuel (r + 1) (turn (poll r) s) seen' with
          | .error e => .error e
          | .ok (l, ended) => .ok (seen' :: l, ended)

/-- base.py:514, 525-560 for `n` processes: `num_results_vs_idx_process` after each turn. -/
def progress (n : Nat) (poll : Nat → Nat → Option Int) (files : Nat → Nat → Option Txt) (fuel : Nat) :
    Except PyErr (List (Nat → Int) × Bool) :=
  progressLoop poll files fuel 0 ⟨List.range n, [], []⟩ (fun _ => 0)

/-- base.py:554: `num_results = sum(num_results_vs_idx_process)`. -/
def displayed (n : Nat) (seen : Nat → Int) : Int := ((List.range n).map seen).sum

/-- monitor.py:165-167: `int(content) if content else 0`, for one file. -/
def monitorRead (content : Txt) : Except PyErr Int :=
  match content with
  | [] => .ok 0
  | c :: cs => pyInt (c :: cs)

/-- monitor.py:152-155: the indices of the files which exist when the application starts (in the order of the sorted
names, which is the order of the indices); `AssertionError` if there is none. -/
def monitorInit (n : Nat) (files : Nat → Option Txt) : Except PyErr (List Nat) :=
  let paths := (List.range n).filter (fun i => (files i).isSome)
  if paths.isEmpty then .error .assertionError else .ok paths

/-- monitor.py:160-168 `detect_results`: the number of results shown, for the files found when the application has
been started (`FileNotFoundError` if one of them has been deleted). -/
def detectResults (files : Nat → Option Txt) : List Nat → Except PyErr Int
  | [] => .ok 0
  | i :: is =>
    match files i with
    | none => .error .fileNotFoundError
    | some content =>
      match monitorRead content with
      | .error e => .error e
      | .ok v =>
        match detectResults files is with
        | .error e => .error e
        | .ok rest => .ok (v + rest)

/-- `fnmatch(name, "job_*")` -/
def globJob (name : Txt) : Bool := ['j', 'o', 'b', '_'].isPrefixOf name

/-- monitor.py:119-124: `sorted(path_results.glob("job_*"))[-1]`; `none`: "No job info folder found." -/
def pickJob (names : List Txt) : Option Txt :=
  ((names.filter globJob).insertionSort (fun a b => a ≤ b)).getLast?

/-- `n` written with `w` digits (`%02d`, `%04d`; the numbers of a date are small enough). -/
def padded : Nat → Nat → Txt
  | 0, _ => []
  | w + 1, n => digitChar (n / 10 ^ w % 10) :: padded w n

/-- A date, up to the second. -/
structure Date where
  year : Nat
  month : Nat
  day : Nat
  hour : Nat
  minute : Nat
  second : Nat
deriving DecidableEq, Repr

/-- `fluiddyn.time_as_str()`: `time.strftime("%Y-%m-%d_%H-%M-%S")`. -/
def timeStr (d : Date) : Txt :=
  padded 4 d.year ++ ['-'] ++ padded 2 d.month ++ ['-'] ++ padded 2 d.day ++ ['_'] ++ padded 2 d.hour ++ ['-'] ++
    padded 2 d.minute ++ ['-'] ++ padded 2 d.second

/-- base.py:86-88: name of the job directory (`suffix`: the number added if the name is taken). -/
def jobName (d : Date) (pid : Nat) (suffix : Txt) : Txt :=
  ['j', 'o', 'b', '_'] ++ timeStr d ++ ['_'] ++ natStr pid ++ suffix

/-- monitor.py:127, 170-173: `job_is_running`, for the job directory `job_{p}`. -/
def jobIsRunning (fs : JobDir.Fs) (p : Txt) : Bool := decide (JobDir.jobDir p ∈ fs.locks)

end Verif.Monitor
