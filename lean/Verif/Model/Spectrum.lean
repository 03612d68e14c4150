import Verif.Model.Dft

/-!
# Model of the spectra

`/repo/src/fluidimage/postproc/util.py`: 80-124 (`compute_1dspectrum`), 127-185 (`compute_2dspectrum`), for one signal
(the other axes of the array are not modelled).  Real numbers instead of floats.
-/

namespace Verif.Spectrum
open Complex Finset Verif.Dft

/-- 110-112: `Lx` and `dk` from the number of points and `dx = x[1] - x[0]`. -/
noncomputable def lx (n : ℕ) (dx : ℝ) : ℝ := n * dx

noncomputable def dk (n : ℕ) (dx : ℝ) : ℝ := 2 * Real.pi / lx n dx

/-- 115-117: `signal_fft` -/
noncomputable def signalFft (n : ℕ) (dx : ℝ) (s : ℕ → ℂ) (i : ℕ) : ℂ :=
  ((dx / lx n dx : ℝ) : ℂ) * fft n s (shiftIdx n i)

/-- 118: `omega` -/
noncomputable def omega (n : ℕ) (dx : ℝ) (i : ℕ) : ℝ := fftfreq n dx (shiftIdx n i) * 2 * Real.pi

/-- 120: `psd` -/
noncomputable def psd (n : ℕ) (dx : ℝ) (s : ℕ → ℂ) (i : ℕ) : ℝ :=
  0.5 / dk n dx * ‖signalFft n dx s i‖ ^ 2

/-- 164-166: `signal_fft` in two dimensions; `fftshift` along both axes. -/
noncomputable def signalFft2 (ny nx : ℕ) (s : ℕ → ℕ → ℂ) (i j : ℕ) : ℂ :=
  ((1 / ((nx : ℝ) * ny) : ℝ) : ℂ) * fft2 ny nx s (shiftIdx ny i) (shiftIdx nx j)

/-- 180: `psd` in two dimensions -/
noncomputable def psd2 (ny nx : ℕ) (dy dx : ℝ) (s : ℕ → ℕ → ℂ) (i j : ℕ) : ℝ :=
  0.5 / (dk nx dx * dk ny dy) * ‖signalFft2 ny nx s i j‖ ^ 2

end Verif.Spectrum
