import Verif.Model.VectorField
import Verif.Model.Spectrum

/-!
# Model of the spatial Fourier transform of a vector field

`/repo/src/fluidimage/postproc/vector_field.py` 541-558 (`compute_spatial_fft`) with `/repo/src/fluidimage/postproc/util.py`
80-124 (`compute_1dspectrum` along one axis) and 127-185 (`compute_2dspectrum` with 1D coordinates).
Real numbers instead of floats.  The spectra `psd` are those of `Spectrum.lean`.
-/

namespace Verif.SpatialFft
open Verif Verif.PivGrid Verif.VectorField Verif.GridFinal

/-- The argument `axes`: the pair `(0, 1)`, one axis, or something else. -/
inductive Axes where
  | both
  | one (axis : Int)
  | other

/-- An array of complex numbers with its shape. -/
structure Arr where
  ny : ℕ
  nx : ℕ
  get : ℕ → ℕ → ℂ

/-- An array of wave numbers, or coordinates of the field. -/
structure Vec where
  n : ℕ
  get : ℕ → ℝ

/-- What is returned (550, 554, 558), in the order of the code: `vx_fft`, `vy_fft`, the value at the place of the abscissa, the
value at the place of the ordinate. -/
structure Result where
  vx : Arr
  vy : Arr
  first : Vec
  second : Vec

/-- util.py 113, 155-156: `x[1] - x[0]` (`IndexError` if there are fewer than two coordinates) -/
noncomputable def spacing (x : List ℚ) : Except PyErr ℝ :=
  match at' x 1 with
  | .error e => .error e
  | .ok x1 => match at' x 0 with
    | .error e => .error e
    | .ok x0 => .ok ((x1 - x0 : ℚ) : ℝ)

/-- The coordinates returned as they are (554, 558). -/
def coords (x : List ℚ) : Vec := ⟨x.length, fun i => ((x.getD i 0 : ℚ) : ℝ)⟩

/-- The wave numbers of `n` points with spacing `d`: util.py 120, 177-178 -/
noncomputable def waves (n : ℕ) (d : ℝ) : Vec := ⟨n, Spectrum.omega n d⟩

/-- 544-549: `compute_2dspectrum(self.x, self.y, v, axes=(0, 1))`; the transform has the shape of the array. -/
noncomputable def fftBoth (im : Img ℚ) : Arr :=
  ⟨im.ny, im.nx, fun l k => Spectrum.signalFft2 im.ny im.nx (fun j i => (im.get j i : ℂ)) l k⟩

/-- 552-553: along the axis 0 (the lines of constant `x`), with `n` points of spacing `d`. -/
noncomputable def fftAxis0 (n : ℕ) (d : ℝ) (im : Img ℚ) : Arr :=
  ⟨im.ny, im.nx, fun l i => ((d / Spectrum.lx n d : ℝ) : ℂ) * Dft.fft im.ny (fun j => (im.get j i : ℂ)) (Dft.shiftIdx im.ny l)⟩

/-- 556-557: along the axis 1. -/
noncomputable def fftAxis1 (n : ℕ) (d : ℝ) (im : Img ℚ) : Arr :=
  ⟨im.ny, im.nx, fun j k => ((d / Spectrum.lx n d : ℝ) : ℂ) * Dft.fft im.nx (fun i => (im.get j i : ℂ)) (Dft.shiftIdx im.nx k)⟩

/-- 541-558 `compute_spatial_fft`.  `none`: the function returns `None`.  Python: `axes == 0` is true for `0`, `False` and
`0.`; the regularity of the grid is not tested. -/
noncomputable def spatialFft (F : VField ℚ) (axes : Axes) : Except PyErr (Option Result) :=
  match axes with
  | .both => match spacing F.x with
    | .error e => .error e
    | .ok dx => match spacing F.y with
      | .error e => .error e
      | .ok dy => .ok (some ⟨fftBoth F.vx, fftBoth F.vy, waves F.x.length dx, waves F.y.length dy⟩)
  | .one a =>
    if a = 0 then
      match spacing F.y with
      | .error e => .error e
      | .ok dy => .ok (some ⟨fftAxis0 F.y.length dy F.vx, fftAxis0 F.y.length dy F.vy, coords F.x, waves F.y.length dy⟩)
    else if a = 1 then
      match spacing F.x with
      | .error e => .error e
      | .ok dx => .ok (some ⟨fftAxis1 F.x.length dx F.vx, fftAxis1 F.x.length dx F.vy, waves F.x.length dx, coords F.y⟩)
    else .ok none
  | .other => .ok none

end Verif.SpatialFft
