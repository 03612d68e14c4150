import Verif.Py.Text
import Mathlib.Data.Rat.Defs

/-!
# Model of the log files: lines written by the executors, and their analysis

Writing: `/repo/src/fluidimage/executors/base.py` 301-307, `exec_sequential.py` 48-70, `exec_async.py` 137-150, 235-255, 288-308,
`exec_async_multiproc.py` 67-71, 129-132, `servers.py` 251-274, `/repo/src/fluidimage/util/util.py` 70-90, and
`/repo/src/fluidimage/topologies/base.py` 144 (`name_no_space`).
Reading: `/repo/src/fluidimage/topologies/log.py` (`DataLogFile`, `LogTopology`).

Strings are lists of characters, lines are without their final newline.  The texts of numbers and dates are read with functions
`fl` (Python `float`, `none` for `ValueError`) and `pd` (96-99), which are parameters.  The colours are those of
`fluiddyn.util.terminal_colors`.
-/

namespace Verif.LogFile
open Verif Verif.Text

/-- `text.split()`: maximal sequences of characters which are not white space. -/
def wordsAux (cur : List Char) : List Char → List (List Char)
  | [] => if cur = [] then [] else [cur]
  | c :: cs =>
    if isSpace c then (if cur = [] then wordsAux [] cs else cur :: wordsAux [] cs)
    else wordsAux (cur ++ [c]) cs

/-- `text.split()` -/
def words (s : List Char) : List (List Char) := wordsAux [] s

/-- `sub in text` -/
def contains (sub : List Char) : List Char → Bool
  | [] => sub.isPrefixOf []
  | c :: cs => sub.isPrefixOf (c :: cs) || contains sub cs

/-! ## Writing -/

/-- `term.OKGREEN` -/
def okGreen : List Char := ['\x1b', '[', '9', '2', 'm']

/-- `term.ENDC` -/
def endc : List Char := ['\x1b', '[', '0', 'm']

/-- `text.ljust(n)` -/
def ljust (n : Nat) (s : List Char) : List Char := s ++ List.replicate (n - s.length) ' '

/-- util.py 70-73, 81-90: the line with the memory `mem` (text of the number). -/
def memLine (string mem : List Char) : List Char :=
  okGreen ++ (ljust 30 (string ++ ": ".toList) ++ mem ++ " Mb".toList) ++ endc

/-- topologies/base.py 144: `self.name.replace(" ", "_")` -/
def nameNoSpace (name : List Char) : List Char := name.map (fun c => if c = ' ' then '_' else c)

/-- The line written when a work is launched; `t`: text of the time. -/
def launchLine (t name key mem : List Char) : List Char :=
  memLine (t ++ " s. Launch work ".toList ++ nameNoSpace name ++ (" (".toList ++ key ++ "). mem usage".toList)) mem

/-- The line written when a work is done; `d`: text of the duration. -/
def doneLine (name key d : List Char) : List Char :=
  "work ".toList ++ nameNoSpace name ++ " (".toList ++ key ++ ") ".toList ++ ("done in ".toList ++ d ++ " s".toList)

/-- executors/base.py 219-220: the line written when the execution starts; `date`: text of `time_as_str(2)`. -/
def startLine (date mem : List Char) : List Char := memLine (date ++ ": starting execution. mem usage".toList) mem

/-- executors/base.py 294-296: the line written when `compute` ends. -/
def stopLine (date mem : List Char) : List Char := memLine (date ++ ": end of `compute`. mem usage".toList) mem

/-- What is written in a log file: start of the function of a work (not global: `key`), its end, and other lines (what is
printed). -/
inductive Event where
  | launch (t name key mem : List Char)
  | done (name key d : List Char)
  | other (line : List Char)

def Event.line : Event → List Char
  | .launch t name key mem => launchLine t name key mem
  | .done name key d => doneLine name key d
  | .other line => line

/-! ## Reading -/

/-- log.py 86-92: an element of `works`. -/
structure Launch where
  name : List Char
  key : List Char
  mem : ℚ
  time : ℚ
deriving DecidableEq

/-- log.py 118-120: an element of `works_ended`. -/
structure Ended where
  name : List Char
  key : List Char
  duration : ℚ
deriving DecidableEq

/-- The attributes of `DataLogFile` and its local variables `mem`, `time_start` (`none`: not assigned). -/
structure Data where
  works : List Launch
  ended : List Ended
  mem : Option ℚ
  memStart : Option ℚ
  timeStart : Option ℚ
  duration : Option ℚ
  memEnd : Option ℚ
deriving DecidableEq

/-- Before the first line. -/
def Data.empty : Data := ⟨[], [], none, none, none, none, none⟩

/-- `words[-2]` -/
def lastButOne (ws : List (List Char)) : Option (List Char) := if 2 ≤ ws.length then ws[ws.length - 2]? else none

/-- log.py 71-107: a line with `". mem usage: "`, already without its first 5 characters.  The tests on lines 101 and 105 are done
here only for the lines which are not those of a launch. -/
def parseMem (fl : List Char → Option ℚ) (pd : List Char → Option ℚ) (line : List Char) (s : Data) : Except PyErr Data :=
  match lastButOne (words line) with
  | none => .error .indexError
  | some w =>
    -- 76-79
    let s := match fl w with
      | some m => { s with mem := some m }
      | none => s
    if contains ". Launch work ".toList line then
      -- 82-92
      match (words line)[0]?, (words line)[4]?, (words line)[5]? with
      | some w0, some name, some w5 =>
        (match fl w0, s.mem with
        | some t, some mem => .ok { s with works := s.works ++ [⟨name, (w5.drop 1).dropLast.dropLast, mem, t⟩] }
        | none, _ => .error .valueError
        | some _, none => .error .unboundLocalError)
      | _, _, _ => .error .indexError
    else
      -- 94-107
      match (words line)[0]? with
      | none => .error .indexError
      | some w0 => match pd w0.dropLast with
        | none => .error .valueError
        | some t =>
          if contains ": starting execution. mem usage".toList line then
            (match s.mem with
            | none => .error .unboundLocalError
            | some mem => .ok { s with memStart := some mem, timeStart := some t })
          else if contains ": end of `compute`. mem usage".toList line then
            (match s.timeStart, s.mem with
            | some t0, some mem => .ok { s with duration := some (t - t0), memEnd := some mem }
            | _, _ => .error .unboundLocalError)
          else .ok s

/-- log.py 109-121: the end of a work. -/
def parseDone (fl : List Char → Option ℚ) (line : List Char) (s : Data) : Except PyErr Data :=
  if "work ".toList.isPrefixOf line && contains " done in ".toList line then
    match (words line)[1]?, (words line)[2]?, lastButOne (words line) with
    | some name, some w2, some w => (match fl w with
      | none => .ok s
      | some d => .ok { s with ended := s.ended ++ [⟨name, (w2.drop 1).dropLast, d⟩] })
    | _, _, _ => .error .indexError
  else .ok s

/-- log.py 41-121: one line.  Lines 44-69 (names and limits in the header) are not modelled. -/
def parseLine (fl pd : List Char → Option ℚ) (s : Data) (line : List Char) : Except PyErr Data :=
  if "ERROR: ".toList.isPrefixOf line then .ok s
  else if contains ". mem usage: ".toList line then
    match parseMem fl pd (line.drop 5) s with
    | .error e => .error e
    | .ok s => parseDone fl (line.drop 5) s
  else parseDone fl line s

/-- log.py 39-121: all the lines. -/
def parse (fl pd : List Char → Option ℚ) : Data → List (List Char) → Except PyErr Data
  | s, [] => .ok s
  | s, line :: lines => match parseLine fl pd s line with
    | .error e => .error e
    | .ok s => parse fl pd s lines

/-- log.py 186-189 -/
def namesWorks : List Launch → List (List Char) → List (List Char)
  | [], names => names
  | w :: ws, names => namesWorks ws (if w.name ∈ names then names else names ++ [w.name])

/-- log.py 195-200: `keys[name]` -/
def keysOf (works : List Launch) (name : List Char) : List (List Char) :=
  (works.filter (fun w => w.name = name)).map Launch.key

/-- log.py 195-200: `times[name]` -/
def timesOf (works : List Launch) (name : List Char) : List ℚ :=
  (works.filter (fun w => w.name = name)).map Launch.time

/-- log.py 202-221: `durations[name]`; `none` is NaN.  The dictionary `index_vs_keys` keeps the last index of each key. -/
def durationsOf (works : List Launch) (ended : List Ended) (name : List Char) : List (Option ℚ) :=
  (keysOf works name).map (fun key =>
    ((((ended.filter (fun e => e.name = name))).reverse.find? (fun e => e.key = key)).map Ended.duration))

/-- log.py 266-270 and 304-306: `plot_nb_workers(str_names)`: a `KeyError` for the first work which is not selected. -/
def plotNbWorkers (names : List (List Char)) (strNames : Option (List Char)) : Except PyErr (List (List Char)) :=
  let selected := match strNames with
    | some s => names.filter (fun name => contains s name)
    | none => names
  if names.all (fun name => name ∈ selected) then .ok names else .error .keyError

end Verif.LogFile
