import Verif.Model.DirectCalib
import Verif.Py.Basic

/-!
# Model of the files and of the checks of a direct calibration

`/repo/src/fluidimage/calibration/calib_direct.py`: 91-103 (`CalibDirect.__init__`), 254-270 (`save`, `load`), 299-309
(`get_base_camera_plane` with the default pixels), 311-403 (`check_interp_levels`, `check_interp_lines`,
`check_interp_lines_coeffs`).

Simplifications.  Real numbers instead of floats, `none` for NaN.  The object is what its methods read: the paths of the files of points,
the numbers of pixels and the two attributes made by `compute_interpolents` and `compute_interpolents_pixel2line`, which are `none`
before these methods are called.  A file written by `numpy.savez` is the values which are saved (with `pickle`), its name is the name
given to `savez` with the extension that `numpy` adds.  `number` is a natural number.  A figure is the list of what is drawn in it; labels
and colours are not modelled.
-/

namespace Verif.DirectFiles
open Verif Verif.Calib

abbrev Path := List Char

/-- `self.interp_lines`: the six interpolations, NaN together, with a `ValueError` out of the bounds. -/
abbrev LinesFn := ℝ × ℝ → Except Err (Option (V3 × V3))

/-- Attributes of `CalibDirect`. -/
structure Obj where
  paths : List Path
  nbX : ℕ
  nbY : ℕ
  levels : Option (List Level)
  lines : Option LinesFn

/-- 256-262: content of a file. -/
structure Saved where
  lines : LinesFn
  paths : List Path
  nbX : ℕ
  nbY : ℕ

abbrev Disk := Path → Option Saved

/-- The extension added by `numpy.savez`. -/
def npz : Path := ".npz".toList

/-- `numpy.savez`: the extension is added if the name does not end with it. -/
def savezName (p : Path) : Path := if npz.isSuffixOf p then p else p ++ npz

/-- 254-262 `save`: the attributes are read before the call of `savez`. -/
def save (o : Obj) (p : Path) (d : Disk) : Except PyErr Disk :=
  match o.lines with
  | none => .error .attributeError
  | some l => .ok fun q => if q = savezName p then some ⟨l, o.paths, o.nbX, o.nbY⟩ else d q

/-- 91-93, 264-270 `CalibDirect(path_file=p)`: the attribute `interp_levels` is not made. -/
def load (d : Disk) (p : Path) : Except PyErr Obj :=
  match d p with
  | none => .error .fileNotFoundError
  | some s => .ok ⟨s.paths, s.nbX, s.nbY, none, some s.lines⟩

/-- 95-103 `CalibDirect(glob_str_xml, shape_img)`, with the files found and `shape_img = (height, width)`. -/
def new (found : List Path) (shape : ℕ × ℕ) : Except PyErr Obj :=
  match found with
  | [] => .error .valueError
  | _ => .ok ⟨found, shape.2, shape.1, none, none⟩

/-- `range(0, nb_pixels, nb_pixels // number)` (314-315, 347-348, 370-371) -/
def samples (n number : ℕ) : Except PyErr (List ℤ) :=
  if number = 0 then .error .zeroDivisionError
  else if n / number = 0 then .error .valueError
  else .ok (pyRange 0 n ((n / number : ℕ) : ℤ))

/-- Exceptions of the interpolations. -/
def ofErr : Err → PyErr
  | .valueError => .valueError
  | .indexError => .indexError
  | .attributeError => .attributeError
  | .unboundLocal => .unboundLocalError
  | .typeError => .typeError
  | .assertion => .assertionError
  | .notFinite => .runtimeError
  | .linAlg => .runtimeError

/-- The interpolations at several pixels, one after the other. -/
def evalAll (L : LinesFn) : List (ℤ × ℤ) → Except PyErr (List (Option (V3 × V3)))
  | [] => .ok []
  | q :: qs => match L ((q.1 : ℝ), (q.2 : ℝ)) with
    | .error e => .error (ofErr e)
    | .ok l => match evalAll L qs with
      | .error e => .error e
      | .ok ls => .ok (l :: ls)

/-- `np.meshgrid(x, y)`, flattened: the first index of the arrays is the one of `y`. -/
def mesh (xs ys : List ℤ) : List (ℤ × ℤ) := ys.flatMap fun y => xs.map fun x => (x, y)

/-- 360-362: the ten points drawn for one path. -/
noncomputable def segment (l : V3 × V3) : List V3 :=
  (List.range 10).map fun k : ℕ => l.1.add (l.2.smul (((k : ℝ) - 5) / 20))

/-- The figure of `check_interp_lines`: the points of the files, and the curves. -/
structure LinesFigure where
  points : List (List V3)
  curves : List (Option (List V3))

/-- 343-345: the points of the files; `files` gives the content of the files which exist. -/
noncomputable def scatter (files : Path → Option (List GridPoint)) : List Path → Except PyErr (List (List V3))
  | [] => .ok []
  | p :: ps => match files p with
    | none => .error .fileNotFoundError
    | some f => match getPoints f with
      | .error e => .error (ofErr e)
      | .ok l => match scatter files ps with
        | .error e => .error e
        | .ok r => .ok ((List.zipWith (fun x y => (⟨x, y, l.Z⟩ : V3)) l.X l.Y) :: r)

/-- 337-366 `check_interp_lines` -/
noncomputable def checkLines (files : Path → Option (List GridPoint)) (o : Obj) (number : ℕ) : Except PyErr LinesFigure :=
  match scatter files o.paths with
  | .error e => .error e
  | .ok pts => match samples o.nbX number with
    | .error e => .error e
    | .ok xs => match samples o.nbY number with
      | .error e => .error e
      | .ok ys => match o.lines with
        | none => .error .attributeError
        | some L => match evalAll L (mesh xs ys) with
          | .error e => .error e
          | .ok ls => .ok ⟨pts, ls.map (Option.map segment)⟩

/-- The figures of `check_interp_lines_coeffs`: the pixels and, for each of them, the path and the norm of its direction. -/
abbrev CoeffsFigures := List ((ℤ × ℤ) × Option ((V3 × V3) × ℝ))

/-- 368-403 `check_interp_lines_coeffs` -/
noncomputable def checkCoeffs (o : Obj) (number : ℕ) : Except PyErr CoeffsFigures :=
  match samples o.nbX number with
  | .error e => .error e
  | .ok xs => match samples o.nbY number with
    | .error e => .error e
    | .ok ys => match o.lines with
      | none => .error .attributeError
      | some L => match evalAll L (mesh xs ys) with
        | .error e => .error e
        | .ok ls => .ok ((mesh xs ys).zip (ls.map (Option.map fun l => (l, l.2.norm))))

/-- 311-335 `check_interp_levels`: for each level, the pixels and their physical coordinates in two figures. -/
def checkLevels (g : GridData) (o : Obj) (number : ℕ) : Except PyErr (List (List ((ℤ × ℤ) × (Option ℝ × Option ℝ)))) :=
  match o.levels with
  | none => .error .attributeError
  | some ls => match samples o.nbX number with
    | .error e => .error e
    | .ok xs => match samples o.nbY number with
      | .error e => .error e
      | .ok ys => .ok (ls.map fun l => (mesh xs ys).map fun q => (q, l.at g ((q.1 : ℝ), (q.2 : ℝ))))

/-- 301-304: `range(nb_pixels // 2 - 20, nb_pixels // 2 + 20)` -/
def middle (n : ℕ) : List ℤ := pyRange (((n / 2 : ℕ) : ℤ) - 20) (((n / 2 : ℕ) : ℤ) + 20) 1

/-- 299-309 `get_base_camera_plane` with the default pixels. -/
noncomputable def basePlane (o : Obj) : Except PyErr (M3 × M3) :=
  match o.lines with
  | none => .error .attributeError
  | some L => match evalAll L (mesh (middle o.nbX) (middle o.nbY)) with
    | .error e => .error e
    | .ok ls => match baseCamera (ls.map (Option.map Prod.snd)) with
      | .error e => .error (ofErr e)
      | .ok b => .ok b

end Verif.DirectFiles
