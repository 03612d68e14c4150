import Verif.Model.LogPlot

/-!
# Model of two figures of the analysis of an execution: the durations of the works and the memory

`/repo/src/fluidimage/topologies/log.py` 219-237 (`plot_memory`) and 239-263 (`plot_durations`).
A figure is what is given to `ax.plot`; NaN is `none` (matplotlib does not draw a point with a coordinate NaN).  Not modelled: the titles,
the names of the axes, the colours, the legend and the rounding of the floats.
-/

namespace Verif.LogDurations
open Verif Verif.LogFile Verif.LogPlot

/-- What is drawn for the works of one name: the points (time, duration), one segment per launch, and the dotted line. -/
structure NamePlot where
  name : List Char
  points : List (ℚ × Option ℚ)
  segments : List ((ℚ × Option ℚ) × (Option ℚ × Option ℚ))
  first : ℚ
  last : ℚ
  mean : Option ℚ
deriving DecidableEq

/-- `times.min()`: `ValueError` for an empty array. -/
def minOf : List ℚ → Except PyErr ℚ
  | [] => .error .valueError
  | t :: ts => .ok (ts.foldl min t)

/-- `times.max()` -/
def maxOf : List ℚ → Except PyErr ℚ
  | [] => .error .valueError
  | t :: ts => .ok (ts.foldl max t)

/-- `np.nanmean(durations)`: NaN (with a warning) when there is no number. -/
def nanmean (l : List (Option ℚ)) : Option ℚ :=
  match l.filterMap id with
  | [] => none
  | ds => some (ds.sum / ds.length)

/-- 249-260: the body of the loop, for one name. -/
def plotName (works : List Launch) (ended : List Ended) (name : List Char) : Except PyErr NamePlot :=
  let times := timesOf works name
  let durations := durationsOf works ended name
  match minOf times, maxOf times with
  | .ok a, .ok b =>
    .ok ⟨name, times.zip durations, List.zipWith (fun t d => ((t, d), (d.map (t + ·), d))) times durations, a, b, nanmean durations⟩
  | .error e, _ => .error e
  | _, .error e => .error e

/-- 249-260: the loop. -/
def plotNames (works : List Launch) (ended : List Ended) : List (List Char) → Except PyErr (List NamePlot)
  | [] => .ok []
  | name :: names => match plotName works ended name with
    | .error e => .error e
    | .ok p => match plotNames works ended names with
      | .error e => .error e
      | .ok ps => .ok (p :: ps)

/-- 239-263 `plot_durations` -/
def plotDurations (works : List Launch) (ended : List Ended) : Except PyErr (List NamePlot) :=
  plotNames works ended (namesWorks works [])

/-- 219-237 `plot_memory`: the points of the line, and the crosses. -/
def plotMemory (a : Analysis) : List (ℚ × ℚ) × List (ℚ × ℚ) :=
  (a.works.map fun w => (w.time, w.mem),
    (0, a.memStart) :: match a.duration, a.memEnd with
      | some d, some m => [(d, m)]
      | _, _ => [])

end Verif.LogDurations
