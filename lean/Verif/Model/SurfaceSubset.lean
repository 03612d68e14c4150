import Verif.Model.SurfaceTracking
import Verif.Py.Basic

/-!
# Surface tracking of a subset of images given with a step

`/repo/src/fluidimage/topologies/surface_tracking.py`: the serie of images and the series of couples are built from
`params.images.str_subset` (lines 113-125), and the first queues are filled from them (lines 263-317).

The classes `SerieOfArraysFromFiles` and `SeriesOfArrays` (package fluiddyn) are not in /repo: it is assumed, as the code of /repo does
(executors/base.py 360-363, topologies/splitters.py), that the first one gives the names of the images of `range(start, stop, step)`
and that the second one gives, for each index of `range(ind_start, ind_stop, ind_step)`, the names of the images of the slice.
-/

namespace Verif.Exec

variable {κ α ε : Type}

/-- surface_tracking.py 116-122: the slice of the serie of index `i`, `"i:i+<step + 1>:<step>"`. -/
def coupleSlice (step i : Int) : List Int := pyRange i (i + (step + 1)) step

/-- surface_tracking.py 298-317: the queue of couples, from the series with `ind_start = start`, `ind_stop = stop - 1` and
`ind_step = step` (lines 123-125). -/
def subsetCouples (tup : List κ → α) (keyOf : Int → κ) (nameOf : Int → κ) (start stop step : Int) : Dict κ (Except ε α) :=
  match pyRange start (stop - 1) step with
  | [] => []
  | i :: l => (keyOf (i - 1), .ok (tup [nameOf i, nameOf i])) ::
      (i :: l).map fun j => (keyOf j, .ok (tup ((coupleSlice step j).map nameOf)))

/-- surface_tracking.py 263-317: the queues after `fill_queue_paths`, for the images `range(start, stop, step)`. -/
def subsetStart (O : TrackOps κ α ε) (keyOf nameOf : Int → κ) (pathOf : κ → α) (exists_ : κ → Bool) (start stop step : Int) :
    Queues κ α ε := fun q =>
  if q = 0 then subsetCouples O.tup keyOf nameOf start stop step
  else if q = 1 then (((pyRange start stop step).map nameOf).filter (fun n => !exists_ n)).map (fun n => (n, .ok (pathOf n)))
  else []

end Verif.Exec
