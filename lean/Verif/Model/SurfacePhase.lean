import Verif.Model.Dft

/-!
# Model of the phase of a frame in the surface tracking

`/repo/src/fluidimage/works/surface_tracking.py`: 279-311 (`set_gain_filter`), 365-385 (`rectify_frame`), 446-451 (the end
of `process_frame`, after the normalisation which is in `Verif.Model.SurfaceFrame`), 683-700 (`wave_vector`).

Real numbers instead of floats.  The frames have the shape `(l_y, l_x)` of the gain and of the filter (when the window is
not inside the image, the multiplication of line 385 fails or broadcasts: not modelled).
-/

namespace Verif.SurfacePhase
open Complex Verif.Dft

/-- 281, 282: element `j` of `np.arange(-l / 2, l / 2) / l`, which has `l` elements. -/
noncomputable def freq (l j : ℕ) : ℝ := (-(l : ℝ) / 2 + j) / l

/-- 284, 285: `gain[i, j]` (it does not depend on `i`): `X = kx * l_x`. -/
noncomputable def gain (kx : ℝ) (lx j : ℕ) : ℂ :=
  Complex.exp (-1 * I * 2 * Real.pi * ((kx / lx * (freq lx j * lx) : ℝ) : ℂ))

/-- 287, 288: the array given to `fftshift`. -/
noncomputable def low (kx slicer : ℝ) (lx : ℕ) (fx fy : ℝ) : ℝ :=
  Real.exp (-((fx ^ 2 + fy ^ 2) / 2 / (kx / slicer / lx) ^ 2))
    * Real.exp (1 - 1 / (1 + ((fx + kx) ^ 2 + fy ^ 2) / kx ^ 2))

/-- 292-299: the array given to `fftshift`. -/
noncomputable def notchLeft (kx : ℝ) (lx : ℕ) (fx fy : ℝ) : ℝ :=
  -Real.exp (-(((fx + kx / lx) ^ 2 + fy ^ 2) / 2 / (kx / 10 / lx) ^ 2)) + 1

/-- 302-309: the array given to `fftshift`. -/
noncomputable def notchRight (kx : ℝ) (lx : ℕ) (fx fy : ℝ) : ℝ :=
  -Real.exp (-(((fx - kx / lx) ^ 2 + fy ^ 2) / 2 / (kx / 10 / lx) ^ 2)) + 1

/-- 286-311: `filt[l, k]`, product of three shifted arrays of shape `(l_y, l_x)`. -/
noncomputable def filt (kx slicer : ℝ) (ly lx l k : ℕ) : ℝ :=
  low kx slicer lx (freq lx (shiftIdx lx k)) (freq ly (shiftIdx ly l))
    * notchLeft kx lx (freq lx (shiftIdx lx k)) (freq ly (shiftIdx ly l))
    * notchRight kx lx (freq lx (shiftIdx lx k)) (freq ly (shiftIdx ly l))

/-- 385 `rectify_frame`: element `(l, k)`. -/
noncomputable def rectify (kx slicer : ℝ) (ly lx : ℕ) (frame : ℕ → ℕ → ℝ) (l k : ℕ) : ℂ :=
  fft2 ly lx (fun i j => (frame i j : ℂ) * gain kx lx j) l k * (filt kx slicer ly lx l k : ℂ)

/-- 446, 447: `inversed_filt` -/
noncomputable def inversed (kx slicer : ℝ) (ly lx : ℕ) (frame : ℕ → ℕ → ℝ) (i j : ℕ) : ℂ :=
  ifft2 ly lx (rectify kx slicer ly lx frame) i j

/-- `np.mod(x, y)` for a positive `y` -/
noncomputable def npMod (x y : ℝ) : ℝ := x - y * ⌊x / y⌋

/-- `ddmod` of `np.unwrap` -/
noncomputable def ddMod (dd : ℝ) : ℝ := npMod (dd + Real.pi) (2 * Real.pi) - Real.pi

/-- `ph_correct` of `np.unwrap` for the difference `dd` of two consecutive elements (code of NumPy: `period` is `2 π`,
`discont` is `π`). -/
noncomputable def phCorrect (dd : ℝ) : ℝ :=
  if |dd| < Real.pi then 0
  else (if ddMod dd = -Real.pi ∧ 0 < dd then Real.pi else ddMod dd) - dd

/-- `np.unwrap` of an array of one dimension: `up[1:] = p[1:] + ph_correct.cumsum()`. -/
noncomputable def unwrap1 (p : ℕ → ℝ) (j : ℕ) : ℝ :=
  p j + ∑ k ∈ Finset.range j, phCorrect (p (k + 1) - p k)

/-- 449: `np.unwrap(a, axis=1)` -/
noncomputable def unwrapLines (a : ℕ → ℕ → ℝ) (i j : ℕ) : ℝ := unwrap1 (a i) j

/-- 450: `np.unwrap(a, axis=0)` -/
noncomputable def unwrapColumns (a : ℕ → ℕ → ℝ) (i j : ℕ) : ℝ := unwrap1 (fun i => a i j) i

/-- 449, 450: by lines, then by columns. -/
noncomputable def unwrap2 (a : ℕ → ℕ → ℝ) : ℕ → ℕ → ℝ := unwrapColumns (unwrapLines a)

/-- 446-451: the phase of a normalised frame. `np.angle` is the argument in `(-π, π]`. -/
noncomputable def phase (kx slicer : ℝ) (ly lx red : ℕ) (frame : ℕ → ℕ → ℝ) : ℕ → ℕ → ℝ :=
  unwrap2 (fun i j => Complex.arg (inversed kx slicer ly lx frame (red * i) (red * j)))

/-- `argmax` of `n` values: the first index of a maximum (`n = 0`, for which NumPy raises, is not modelled). -/
noncomputable def argmaxFirst (f : ℕ → ℝ) : ℕ → ℕ
  | 0 => 0
  | n + 1 => if f (argmaxFirst f n) < f n then n else argmaxFirst f n

/-- `np.fft.fft2(ref, (ny, nx))`: the array is completed with zeros (`ny` and `nx` are at least the sizes of the
array). -/
noncomputable def fft2Padded (ly lx ny nx : ℕ) (ref : ℕ → ℕ → ℝ) (l k : ℕ) : ℂ :=
  fft2 ny nx (fun i j => if i < ly ∧ j < lx then (ref i j : ℂ) else 0) l k

/-- 698: the maximum over the lines of the shifted modulus: element `j`. -/
noncomputable def columnMax (ly lx sur : ℕ) (ref : ℕ → ℕ → ℝ) (j : ℕ) : ℝ :=
  let f := fun i => ‖fft2Padded ly lx (ly * sur) (lx * sur) ref (shiftIdx (ly * sur) i) (shiftIdx (lx * sur) j)‖
  f (argmaxFirst f (ly * sur))

/-- 697: `kxma` -/
noncomputable def kxma (lx sur j : ℕ) : ℝ := (-((lx : ℝ) * sur) / 2 + j) / sur

/-- 683-699 `wave_vector` of a reference of shape `(ly, lx)` (which are `ymax - ymin` and `xmax - xmin`). -/
noncomputable def waveVector (ly lx sur : ℕ) (ref : ℕ → ℕ → ℝ) : ℝ :=
  |kxma lx sur (argmaxFirst (columnMax ly lx sur ref) (lx * sur))|

end Verif.SurfacePhase
