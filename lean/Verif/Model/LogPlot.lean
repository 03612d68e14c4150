import Verif.Model.LogFile
import Verif.Model.ResultsFiles
import Mathlib.Algebra.Order.Ring.Rat
import Mathlib.Data.List.Sort

/-!
# Model of the analysis of an execution: which log is read, its header, and the number of workers

`/repo/src/fluidimage/topologies/log.py` 28-124 (`DataLogFile`, with the header 50-69), 127-221 (`LogTopology.__init__`), 263-313
(`plot_nb_workers`); writing of the header: `/repo/src/fluidimage/executors/base.py` 219-231 (`_init_compute_log`).
The lines which are not those of the header are in `Model/LogFile.lean`.  Not modelled: what is printed during the analysis, the titles,
the names of the axes and the legends.
-/

namespace Verif.LogPlot
open Verif Verif.Text Verif.LogFile Verif.ResultsFiles

/-! ## Header -/

/-- base.py 222-229: the lines of the header, without the last ones (path and monitoring), which are given. -/
def headerLines (topology executor : Txt) (cpus workers expected : Int) : List Txt :=
  ["  topology: ".toList ++ topology, "  executor: ".toList ++ executor, "  nb_cpus_allowed = ".toList ++ intStr cpus,
    "  nb_max_workers = ".toList ++ intStr workers, "  num_expected_results = ".toList ++ intStr expected]

/-- log.py 33-36 -/
structure Header where
  cpus : Option Int
  workers : Option Int
  topology : Option Txt
  executor : Option Txt
deriving DecidableEq

def Header.empty : Header := ⟨none, none, none, none⟩

/-- `int(line.split()[2])` -/
def thirdInt (line : Txt) : Except PyErr Int :=
  match (words line)[2]? with
  | none => .error .indexError
  | some w => pyInt w

/-- The text before the first occurrence of `sep`. -/
def beforeSep (sep : Txt) : Txt → Txt
  | [] => []
  | c :: l => if sep.isPrefixOf (c :: l) then [] else c :: beforeSep sep l

/-- `line.split(begin)[1].strip()` for a line which starts with `begin` -/
def afterBegin (start line : Txt) : Txt := strip (beforeSep start (line.drop start.length))

/-- log.py 50-55 -/
def readCpus (h : Header) (line : Txt) : Except PyErr Header :=
  if h.cpus = none ∧ "  nb_cpus_allowed = ".toList.isPrefixOf line = true then
    match thirdInt line with
    | .error e => .error e
    | .ok n => .ok { h with cpus := some n }
  else .ok h

/-- log.py 57-61 -/
def readWorkers (h : Header) (line : Txt) : Except PyErr Header :=
  if h.workers = none ∧ "  nb_max_workers = ".toList.isPrefixOf line = true then
    match thirdInt line with
    | .error e => .error e
    | .ok n => .ok { h with workers := some n }
  else .ok h

/-- log.py 63-66 -/
def readTopology (h : Header) (line : Txt) : Header :=
  if h.topology = none ∧ "  topology: ".toList.isPrefixOf line = true then { h with topology := some (afterBegin "  topology: ".toList line) } else h

/-- log.py 68-71 -/
def readExecutor (h : Header) (line : Txt) : Header :=
  if h.executor = none ∧ "  executor: ".toList.isPrefixOf line = true then { h with executor := some (afterBegin "  executor: ".toList line) } else h

/-- log.py 47-71: one line -/
def readHeader (h : Header) (line : Txt) : Except PyErr Header :=
  if "ERROR: ".toList.isPrefixOf line then .ok h
  else match readCpus h line with
    | .error e => .error e
    | .ok h => match readWorkers h line with
      | .error e => .error e
      | .ok h => .ok (readExecutor (readTopology h line) line)

/-- log.py 42-121: all the lines of a file. -/
def parseFile (fl pd : Txt → Option ℚ) : Header × Data → List Txt → Except PyErr (Header × Data)
  | s, [] => .ok s
  | (h, s), line :: lines => match readHeader h line with
    | .error e => .error e
    | .ok h => match parseLine fl pd s line with
      | .error e => .error e
      | .ok s => parseFile fl pd (h, s) lines

/-! ## Which files -/

/-- The order of the texts (code points). -/
def txtLe : Txt → Txt → Bool
  | [], _ => true
  | _ :: _, [] => false
  | a :: x, b :: y => if a.toNat < b.toNat then true else if b.toNat < a.toNat then false else txtLe x y

/-- `sorted(names)[-1]` -/
def lastName : List Txt → Option Txt
  | [] => none
  | n :: ns => match lastName ns with
    | none => some n
    | some m => if txtLe n m then some m else some n

/-- A directory with files: their names and their lines. -/
abbrev Files := List (Txt × List Txt)

/-- What is in a directory: files and directories (with their files). -/
inductive Node where
  | file (lines : List Txt)
  | dir (files : Files)

/-- What is given to `LogTopology`: a directory with its name and what it contains, a file with the files of its directory, or a path where
nothing is. -/
inductive Given where
  | dir (name : Txt) (entries : List (Txt × Node))
  | file (lines : List Txt) (dir : Files)
  | absent

/-- `glob("log_*")` -/
def isLog (n : Txt) : Bool := "log_".toList.isPrefixOf n

/-- A pattern with one star. -/
def globs (start stop n : Txt) : Bool := start.isPrefixOf n && stop.isPrefixOf ((n.drop start.length).reverse)

/-- `glob("log_*.txt")` -/
def isLogFile (n : Txt) : Bool := globs "log_".toList "txt.".toList n

/-- `glob("process_*.txt")` -/
def isProcessFile (n : Txt) : Bool := globs "process_".toList "txt.".toList n

/-- The files of a directory. -/
def filesOf : List (Txt × Node) → Files
  | [] => []
  | (n, .file lines) :: l => (n, lines) :: filesOf l
  | (_, .dir _) :: l => filesOf l

/-- log.py 150-155: the log in a directory of logs: its lines and the files of its directory. -/
def inLogDir (files : Files) : Except PyErr (List Txt × Files) :=
  match lastName ((files.map Prod.fst).filter isLogFile) with
  | none => .error .valueError
  | some n => match files.lookup n with
    | none => .error .fileNotFoundError
    | some lines => .ok (lines, files)

/-- log.py 132-155 -/
def chooseLog : Given → Except PyErr (List Txt × Files)
  | .dir name entries =>
    if isLog name then inLogDir (filesOf entries)
    else match lastName ((entries.map Prod.fst).filter isLog) with
      | none => .error .valueError
      | some n => match entries.lookup n with
        | none => .error .fileNotFoundError
        | some (.file lines) => .ok (lines, filesOf entries)
        | some (.dir files) => inLogDir files
  | .file lines dir => .ok (lines, dir)
  | .absent => .error .valueError

/-- What is known of an execution. -/
structure Analysis where
  header : Header
  works : List Launch
  ended : List Ended
  memStart : ℚ
  duration : Option ℚ
  memEnd : Option ℚ
deriving DecidableEq

/-- log.py 179-183: the logs of the processes. -/
def addProcesses (fl pd : Txt → Option ℚ) : List Launch × List Ended → List (List Txt) → Except PyErr (List Launch × List Ended)
  | s, [] => .ok s
  | (ws, es), lines :: l => match parseFile fl pd (Header.empty, Data.empty) lines with
    | .error e => .error e
    | .ok (_, d) => addProcesses fl pd (ws ++ d.works, es ++ d.ended) l

/-- log.py 179: `sorted(path_log_dir.glob("process_*.txt"))`, the lines of these files. -/
def processLines (files : Files) : List (List Txt) :=
  ((files.filter fun f => isProcessFile f.1).insertionSort (fun a b => txtLe a.1 b.1 = true)).map Prod.snd

/-- log.py 130-183 `LogTopology(path)`; 168 is an `AttributeError` if the start of the execution has not been read. -/
def analyse (fl pd : Txt → Option ℚ) (g : Given) : Except PyErr Analysis :=
  match chooseLog g with
  | .error e => .error e
  | .ok (lines, files) => match parseFile fl pd (Header.empty, Data.empty) lines with
    | .error e => .error e
    | .ok (h, d) => match d.memStart with
      | none => .error .attributeError
      | some mem => match addProcesses fl pd (d.works, d.ended) (processLines files) with
        | .error e => .error e
        | .ok (ws, es) => .ok ⟨h, ws, es, mem, d.duration, if d.duration = none then none else d.memEnd⟩

/-! ## Number of workers -/

/-- log.py 274-276: `np.array(times_start) + np.array(durations)`; `none` is NaN. -/
def stops (starts : List ℚ) (durations : List (Option ℚ)) : List (Option ℚ) := List.zipWith (fun t d => d.map (t + ·)) starts durations

/-- log.py 279 -/
def eventTimes (starts : List ℚ) (durations : List (Option ℚ)) : List (Option ℚ) := starts.map some ++ stops starts durations

/-- log.py 278 -/
def deltas (starts : List ℚ) (durations : List (Option ℚ)) : List Int := starts.map (fun _ => 1) ++ (stops starts durations).map (fun _ => -1)

/-- `np.cumsum` -/
def cumsum (l : List Int) : List Int := (List.range l.length).map fun (i : Nat) => (l.take (i + 1)).sum

/-- log.py 273-297: the points of the line which is drawn (time, number of workers) for one name; `argsort` is `np.argsort`. -/
def workersLine (argsort : List (Option ℚ) → List Nat) (starts : List ℚ) (durations : List (Option ℚ)) : List (Option ℚ × Int) :=
  let order := argsort (eventTimes starts durations)
  let ts := order.map fun (i : Nat) => (eventTimes starts durations).getD i none
  let ns := cumsum (order.map fun (i : Nat) => (deltas starts durations).getD i 0)
  (List.range (ts.length - 1)).flatMap fun (i : Nat) => [(ts.getD i none, ns.getD i 0), (ts.getD (i + 1) none, ns.getD i 0)]

end Verif.LogPlot
