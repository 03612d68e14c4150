import Verif.Py.Basic
import Mathlib.Data.Rat.Defs

/-!
# Model of the times and of the state of the job shown by `fluidimage-monitor`

* `/repo/src/fluidimage/executors/base.py:85-103` (the time of the start), 244-265 (`_save_lock_file`, `_release_lock`);
* `/repo/src/fluidimage/gui/monitor.py:114-180` (`MonitorApp.__init__`, `check_is_running`), 181-215 (`compose`), 240-245 (the timer),
  259-300 (`update_info`, `load_time_max`, `compute_times_str`).

The files of the job directory which matter here are `is_running.lock` and `time_end.txt`.  The program which computes and the monitor are
two processes: every operation of the one can happen between two operations of the other.

Simplifications: the choice of the job directory and the files with the numbers of results are the subject of C93, here the sum which is
read is one number; the times in the files are given to the second (`"%Y-%m-%d_%H-%M-%S"`, C93 for the text) and are represented by a
number of seconds; `format_time_in_seconds` (fluiddyn) is not modelled, the labels carry the duration; times are in microseconds.
-/

namespace Verif.MonitorTimes
open Verif

/-- Where the program which computes is in `_release_lock` (executors/base.py:260-265): nothing done; the lock is removed; the text of the
end is made; the file `time_end.txt` is opened, so empty; it is written. -/
inductive Job where
  | running
  | unlocked
  | named (t : Int)
  | opened (t : Int)
  | ended (t : Int)
deriving DecidableEq, Repr

/-- `real`: the time in microseconds; `offset`: what has to be added to get the local clock (`datetime.now()` and `time_as_str()` are
naive local times).  `timeEnd`: the file `time_end.txt`, with its content.  `started`, `finished`: the real times of the start and of the
end, which are only used to state the properties. -/
structure World where
  real : Int
  offset : Int
  lock : Bool
  timeEnd : Option (Option Int)
  job : Job
  alive : Bool
  results : Nat
  timeStart : Int
  started : Int
  finished : Int
deriving DecidableEq, Repr

/-- `datetime.now()` -/
def World.now (w : World) : Int := w.real + w.offset

/-- `time_as_str()`: the seconds are truncated. -/
def seconds (t : Int) : Int := t / 1000000

/-- The directory of the job when the lock is written (executors/base.py:85-86, 255-256). -/
def newJob (t offset : Int) : World := ⟨t, offset, true, none, .running, true, 0, seconds (t + offset), t, t⟩

/-- What can happen outside of the monitor. -/
inductive Ev where
  /-- time passes -/
  | pass (d : Nat)
  /-- the local clock is changed (summer time) -/
  | shift (d : Int)
  /-- results are saved -/
  | save (n : Nat)
  /-- the next operation of `_release_lock` -/
  | release
  /-- the program is killed -/
  | kill
deriving DecidableEq, Repr

/-- One operation of `_release_lock` (executors/base.py:260-265). -/
def releaseStep (w : World) : World :=
  match w.job with
  | .running => { w with lock := false, job := .unlocked }
  | .unlocked => { w with job := .named (seconds w.now), finished := w.real }
  | .named t => { w with timeEnd := some none, job := .opened t }
  | .opened t => { w with timeEnd := some (some t), job := .ended t }
  | .ended _ => w

def step (w : World) : Ev → World
  | .pass d => { w with real := w.real + d }
  | .shift d => { w with offset := w.offset + d }
  | .save n => if w.alive then { w with results := w.results + n } else w
  | .release => if w.alive then releaseStep w else w
  | .kill => { w with alive := false }

/-- The label of the times: `Started since …` or `Total duration: …`, the duration in microseconds, and the number of s.CPU/result. -/
structure Times where
  total : Bool
  duration : Int
  cost : Option ℚ
deriving DecidableEq, Repr

/-- The attributes of `MonitorApp` and the labels which are on the screen. -/
structure Monitor where
  timeStart : Int
  cpus : Nat
  timeEnd : Option Int
  jobIsRunning : Bool
  num : Nat
  labelTimes : Times
  labelRunning : Bool
  paused : Bool
deriving DecidableEq, Repr

/-- monitor.py:270-281 `load_time_max`: the new `self.time_end` and the time; `strptime("")` raises `ValueError`. -/
def loadTimeMax (cache : Option Int) (wExists wRead wNow : World) : Except PyErr (Option Int × Int) :=
  match cache with
  | some t => .ok (some t, t * 1000000)
  | none =>
    match wExists.timeEnd with
    | none => .ok (none, wNow.now)
    | some _ =>
      match wRead.timeEnd with
      | none => .error .fileNotFoundError
      | some none => .error .valueError
      | some (some t) => .ok (some t, t * 1000000)

/-- monitor.py:283-300 `compute_times_str` -/
def computeTimes (timeStart : Int) (cpus : Nat) (jobIsRunning : Bool) (num : Nat) (t : Int) : Times :=
  let duration := t - timeStart * 1000000
  ⟨!jobIsRunning, duration, if num = 0 then none else some ((duration : ℚ) / 1000000 * cpus / num)⟩

/-- monitor.py:114-200: `__init__` (is the job running?, the number of results), then the labels made in `compose`, and the timer, which
is paused if the job is not running.  The five worlds are those seen by the five readings. -/
def openMonitor (cpus : Nat) (wLock wResults wExists wRead wNow : World) : Except PyErr Monitor :=
  match loadTimeMax none wExists wRead wNow with
  | .error e => .error e
  | .ok (cache, t) =>
    .ok ⟨wLock.timeStart, cpus, cache, wLock.lock, wResults.results,
      computeTimes wLock.timeStart cpus wLock.lock wResults.results t, wLock.lock, !wLock.lock⟩

/-- monitor.py:259-268 `update_info`, called every two seconds unless the timer is paused. -/
def update (m : Monitor) (wResults wExists wRead wNow wLock : World) : Except PyErr Monitor :=
  if m.paused then .ok m
  else
    match loadTimeMax m.timeEnd wExists wRead wNow with
    | .error e => .error e
    | .ok (cache, t) =>
      let label := computeTimes m.timeStart m.cpus m.jobIsRunning wResults.results t
      if wLock.lock then
        .ok { m with timeEnd := cache, num := wResults.results, labelTimes := label, jobIsRunning := true }
      else
        .ok { m with timeEnd := cache, num := wResults.results, labelTimes := label, jobIsRunning := false, labelRunning := false, paused := true }

end Verif.MonitorTimes
