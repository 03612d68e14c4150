import Verif.Py.Basic
import Mathlib.Algebra.Order.Ring.Rat
import Mathlib.Algebra.Order.Field.Rat

/-!
# Model of the display of a tomographic reconstruction in three dimensions

`/repo/src/fluidimage/data_objects/tomo.py` 212-244 (`ArrayTomoBase.plot3d`), for `ArrayTomoCV` (the `except` of 232-240: no attributes `X`, `Y`, `Z`, the
columns of `grid` are used) and `ArrayTomo` (the arrays `X`, `Y`, `Z` read in the same order as the intensities).

Rational numbers instead of floats, no nan in the intensities.  Not modelled: ipyvolume (it draws one marker for each point).
-/

namespace Verif.TomoPlot
open Verif

/-- The intensities: an array of numpy or an array of dask (attribute `I`). -/
inductive Intensities where
  | numpy (l : List ℚ)
  | dask (l : List ℚ)

/-- A marker: position, level of grey and size (`none`: division by zero). -/
structure Marker where
  pos : ℚ × ℚ × ℚ
  grey : Option ℚ
  size : Option ℚ
deriving DecidableEq

/-- `I.max()` -/
def maxOf : List ℚ → Except PyErr ℚ
  | [] => .error .valueError
  | a :: l => .ok (l.foldl max a)

/-- `array[sel]` for an array of booleans. -/
def selected {α : Type} : List α → List Bool → List α
  | a :: l, b :: sel => if b then a :: selected l sel else selected l sel
  | _, _ => []

/-- Division of numpy: `none` if it is not a number. -/
def ratio (a b : ℚ) : Option ℚ := if b = 0 then none else some (a / b)

/-- The markers, from the selected points and the selected intensities. -/
def markers (m : ℚ) : List (ℚ × ℚ × ℚ) → List ℚ → List Marker
  | p :: ps, v :: vs => ⟨p, ratio v m, (ratio v m).map (· * 5)⟩ :: markers m ps vs
  | _, _ => []

/-- tomo.py 212-244 `plot3d(threshold)` -/
def plot3d (grid : List (ℚ × ℚ × ℚ)) (I : Intensities) (threshold : ℚ) : Except PyErr (List Marker) :=
  match I with
  | .dask _ => .error .valueError
  | .numpy l =>
    let sel := l.map fun v => decide (threshold < v)
    match maxOf l with
    | .error e => .error e
    | .ok m =>
      if grid.length ≠ sel.length then .error .indexError
      else .ok (markers m (selected grid sel) (selected l sel))

end Verif.TomoPlot
