import Verif.Model.Tomo
import Verif.Py.Basic

/-!
# Model of the detection of the points of a calibration target in an image

`/repo/src/fluidimage/calibration/calib_cv.py:71-95` (`SimpleCircleGrid.detect_all`) and 97-156 (`detect_grid`).

The detector of OpenCV is any function from an image of bytes to a list of points.  An image is a list of rows of integers (for an image
of floats the conversion to bytes out of 0-255 depends on the machine).  Not modelled: the figures of the argument `debug`, and the
conversion of the points to floats of 32 bits.
-/

namespace Verif.TargetDetect
open Verif

/-- `astype(np.uint8)` of an integer: the remainder by 256. -/
def toByte (v : ℤ) : ℤ := v % 256

/-- 82-95 `detect_all` -/
def detectAll (detector : List (List ℤ) → List (ℝ × ℝ)) (image : List (List ℤ)) : Except PyErr (List (ℝ × ℝ)) :=
  match detector (image.map (fun row => row.map toByte)) with
  | [] => .error .valueError
  | pts => .ok pts

/-- 123-127: one side of the box: `Bbox.from_bounds(origin - w // 2, …, w, …)` contains its edges (matplotlib). -/
noncomputable def inSide (origin : ℝ) (n : ℕ) (ds : ℝ) (x : ℝ) : Bool :=
  decide (origin - (⌊((n : ℝ) + 1) * ds / 2⌋ : ℤ) ≤ x) &&
    decide (x ≤ origin - (⌊((n : ℝ) + 1) * ds / 2⌋ : ℤ) + ((n : ℝ) + 1) * ds)

/-- 131-134 -/
noncomputable def inBox (origin : ℝ × ℝ) (nx ny : ℕ) (ds : ℝ) (p : ℝ × ℝ) : Bool :=
  inSide origin.1 nx ds p.1 && inSide origin.2 ny ds p.2

/-- 122-156 `detect_grid`.  Without point in the box, `centers[..., 0]` (137) raises `IndexError`. -/
noncomputable def detectGrid (detector : List (List ℤ) → List (ℝ × ℝ)) (image : List (List ℤ)) (origin : ℝ × ℝ) (nx ny : ℕ) (ds : ℝ) :
    Except PyErr (List (ℝ × ℝ)) :=
  match detectAll detector image with
  | .error e => .error e
  | .ok pts =>
    match pts.filter (inBox origin nx ny ds) with
    | [] => .error .indexError
    | centers =>
      match Tomo.detectGrid centers nx ny ds with
      | .ok l => .ok l
      | .error _ => .error .assertionError

end Verif.TargetDetect
