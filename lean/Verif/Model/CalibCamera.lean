import Verif.Model.Tomo
import Verif.Py.Basic
import Verif.Model.ResultsFiles
import Mathlib.Data.List.Sort

/-!
# The calibration of a camera with OpenCV: file of the calibration and pose at a height

`/repo/src/fluidimage/calibration/calib_cv.py` 196-239 (`CalibCV.__init__`, `save`, `get_rotation`, `get_translate`), 240-297
(`calibrate`); `/repo/src/fluidimage/reconstruct/tomo/mlos.py` 167-187 (`phys2pix`).

`cv2.calibrateCamera` and `cv2.projectPoints` are parameters.  Real numbers instead of floats; `none` is NaN.
-/

namespace Verif.CalibCamera
open Verif Verif.ResultsFiles Verif.Calib

/-- A rotation vector or a translation. -/
abbrev Vec := Fin 3 → ℝ

/-- scipy.interpolate.griddata for points in one dimension: the points sorted (`np.argsort`). -/
noncomputable def sortedPts (pts : List (ℝ × Vec)) : List (ℝ × Vec) := by
  classical exact pts.mergeSort fun a b => decide (a.1 ≤ b.1)

/-- `scipy.interpolate.interp1d(..., kind="linear", bounds_error=False, fill_value=nan)` for sorted points: outside of the points NaN;
otherwise `hi = searchsorted(x, z).clip(1, len(x) - 1)`, `lo = hi - 1`, and the line through the two points.  With one point
`lo = -1` is the same point as `hi = 0`: 0 / 0 = NaN (as for two points with the same abscissa). -/
noncomputable def interp1d (s : List (ℝ × Vec)) (z : ℝ) : Option Vec := by
  classical exact
    if (∀ p ∈ s, z < p.1) ∨ (∀ p ∈ s, p.1 < z) then none
    else
      let hi := min (max (s.countP fun p => decide (p.1 < z)) 1) (s.length - 1)
      match s[hi - 1]?, s[hi]? with
      | some a, some b => if b.1 - a.1 = 0 then none else some fun k => (b.2 k - a.2 k) / (b.1 - a.1) * (z - a.1) + a.2 k
      | _, _ => none

/-- 230-238: `griddata(zs, values, znew)` (the default method "linear"). -/
noncomputable def griddata (pts : List (ℝ × Vec)) (z : ℝ) : Option Vec := interp1d (sortedPts pts) z

/-- What `cv2.calibrateCamera` gives: the matrix of the camera, the coefficients of distortion (one column), and for each plane the
rotation vector and the translation (calib_cv.py 290-297). -/
structure Result where
  mtx : Fin 3 → Fin 3 → ℝ
  dist : List ℝ
  rvecs : List Vec
  tvecs : List Vec

/-- The parameters of a calibration (calib_cv.py 205-218, without the names of the class and of the module). -/
structure Params where
  f : ℝ × ℝ
  C : ℝ × ℝ
  mtx : Fin 3 → Fin 3 → ℝ
  kc : List ℝ
  rotation : List Vec
  translate : List Vec
  zs : List ℝ

/-- 205-218: `np.diag(mtx)[:2]`, `mtx[0:2, 2]`, `dist.T[0]`. -/
def makeParams (zs : List ℝ) (r : Result) : Params :=
  ⟨(r.mtx 0 0, r.mtx 1 1), (r.mtx 0 2, r.mtx 1 2), r.mtx, r.dist, r.rvecs, r.tvecs, zs⟩

/-- A path given by the user, cut at its last slash: `os.path.dirname` is empty for a name without slash. -/
structure Path where
  dirname : Txt
  name : Txt
  deriving DecidableEq

abbrev Disk := Path → Option Params

/-- An object `CalibCV`; `params` is absent until a file is loaded or a calibration is done. -/
structure Calib where
  path : Path
  params : Option Params

/-- 196-202 `CalibCV(path_file)`. -/
def new (disk : Disk) (p : Path) : Calib := ⟨p, disk p⟩

/-- 204-224 `save`: the attribute `params` is set first; `os.makedirs("", exist_ok=True)` raises `FileNotFoundError`; an existing file is
not replaced (a warning is printed). -/
def save (zs : List ℝ) (r : Result) (disk : Disk) (c : Calib) : Disk × Calib × Except PyErr Unit :=
  let c := { c with params := some (makeParams zs r) }
  if c.path.dirname = [] then (disk, c, .error .fileNotFoundError)
  else
    match disk c.path with
    | some _ => (disk, c, .ok ())
    | none => (fun q => if q = c.path then c.params else disk q, c, .ok ())

/-- 240-297 `calibrate`; `r` is what `cv2.calibrateCamera` gives for the points of the user. -/
def calibrate (zs : List ℝ) (r : Result) (debug : Bool) (disk : Disk) (c : Calib) : Disk × Calib × Except PyErr (Option Result) :=
  if debug then (disk, c, .ok (some r))
  else
    match save zs r disk c with
    | (disk, c, .ok ()) => (disk, c, .ok none)
    | (disk, c, .error e) => (disk, c, .error e)

/-- 230-233: `get_rotation(znew)`.  (Different numbers of heights and of rotations are an error: not here.) -/
noncomputable def getRotation (p : Params) (z : ℝ) : Option Vec := griddata (p.zs.zip p.rotation) z

/-- 235-238: `get_translate(znew)`. -/
noncomputable def getTranslate (p : Params) (z : ℝ) : Option Vec := griddata (p.zs.zip p.translate) z

/-- mlos.py 178-186: the pixel of a point for the pose at the height `z`; `project` is `cv2.projectPoints` for one point; NaN if
the pose is NaN. -/
noncomputable def pixelAt {α : Type} (project : Vec → Vec → (Fin 3 → Fin 3 → ℝ) → List ℝ → V3 → α) (p : Params) (z : ℝ) (v : V3) : Option α :=
  match getRotation p z, getTranslate p z with
  | some r, some t => some (project r t p.mtx p.kc v)
  | _, _ => none

end Verif.CalibCamera
