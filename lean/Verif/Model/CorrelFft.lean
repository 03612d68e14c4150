import Verif.Model.Dft
import Verif.Model.Correl

/-!
# Model of the correlations with FFT

`/repo/src/fluidimage/calcul/fft.py`: 72-90 (`_compute_energy_from_fourier`), 100-121 (`OperatorFFTBase`), 236-244
(`FFTW2DReal2Complex`), 257-269 (`NumpyFFT2DReal2Complex`); `/repo/src/fluidimage/calcul/correl.py`: 648-685 (`__call__`
of the classes).

Real and complex numbers instead of floats.  The libraries (numpy, fftw) are modelled by the definitions of their
transforms.  An array of shape `(n0, n1)` is a function of two indices.
-/

namespace Verif.CorrelFft
open Complex Finset Verif.Dft Verif.PivGrid

/-- A real image as complex numbers. -/
def toC (im : ℕ → ℕ → ℝ) : ℕ → ℕ → ℂ := fun i j => (im i j : ℂ)

/-- correl.py 655, 657, 678, 680: `fft_im[0, 0] = 0.0` -/
def zero00 (S : ℕ → ℕ → ℂ) : ℕ → ℕ → ℂ := fun l k => if l = 0 ∧ k = 0 then 0 else S l k

/-- correl.py 661, 681: `fft_im0.conj() * fft_im1` -/
noncomputable def conjMul (S T : ℕ → ℕ → ℂ) : ℕ → ℕ → ℂ := fun l k => (starRingEnd ℂ) (S l k) * T l k

/-! ## numpy.fft -/

/-- fft.py 262-263: `np_fft.fft2`, then the mean mode is removed. -/
noncomputable def npFft (n0 n1 : ℕ) (im : ℕ → ℕ → ℝ) : ℕ → ℕ → ℂ := zero00 (fft2 n0 n1 (toC im))

/-- fft.py 268-269: `coef_norm_energy` is `(nx * ny)**2`. -/
noncomputable def npEnergy (n0 n1 : ℕ) (S : ℕ → ℕ → ℂ) : ℝ :=
  (∑ l ∈ range n0, ∑ k ∈ range n1, ‖S l k‖ ^ 2) / 2 / ((n1 : ℝ) * n0) ^ 2

/-- correl.py 681: the correlation before `_like_fftshift`. -/
noncomputable def npRaw (n0 n1 : ℕ) (im0 im1 : ℕ → ℕ → ℝ) : Img ℝ :=
  ⟨n0, n1, fun i j => (ifft2 n0 n1 (conjMul (npFft n0 n1 im0) (npFft n0 n1 im1)) i j).re⟩

/-- correl.py 671-685: the two results of `CorrelFFTNumpy.__call__` (`coef_norm_correl` is `nx * ny`, fft.py 259). -/
noncomputable def npCorrel (junk : ℕ → ℕ → ℝ) (n0 n1 : ℕ) (im0 im1 : ℕ → ℕ → ℝ) : Img ℝ × ℝ :=
  (Correl.likeFftshift junk (npRaw n0 n1 im0 im1),
    Real.sqrt (4 * npEnergy n0 n1 (npFft n0 n1 im0) * npEnergy n0 n1 (npFft n0 n1 im1)) * ((n1 : ℝ) * n0))

/-! ## fftw -/

/-- fft.py 102: number of columns of the arrays in Fourier space. -/
def nk (n1 : ℕ) : ℕ := n1 / 2 + 1

/-- fft.py 236-239: the real to complex transform computes the columns `k < nk n1` of the transform. -/
noncomputable def fftwFft (n0 n1 : ℕ) (im : ℕ → ℕ → ℝ) : ℕ → ℕ → ℂ := zero00 (fft2 n0 n1 (toC im))

/-- The array of shape `(n0, n1)` with the Hermitian symmetry, from its columns `k < nk n1`. -/
noncomputable def hermitian (n0 n1 : ℕ) (S : ℕ → ℕ → ℂ) (l k : ℕ) : ℂ :=
  if k < nk n1 then S l k else (starRingEnd ℂ) (S ((n0 - l) % n0) (n1 - k))

/-- fft.py 241-244: the complex to real transform of fftw, not normalised: uses the columns `k < nk n1` only. -/
noncomputable def fftwIfft (n0 n1 : ℕ) (S : ℕ → ℕ → ℂ) (i j : ℕ) : ℝ :=
  (∑ l ∈ range n0, ∑ k ∈ range n1, hermitian n0 n1 S l k * (e n0 ((i : ℤ) * l) * e n1 ((j : ℤ) * k))).re

/-- fft.py 72-90 `_compute_energy_from_fourier` for an array of shape `(n0, m)` and `coef_norm`. -/
noncomputable def halfEnergy (n0 m : ℕ) (coef : ℝ) (S : ℕ → ℕ → ℂ) : ℝ :=
  0.5 / coef * ∑ l ∈ range n0, (‖S l 0‖ ^ 2 + ‖S l (m - 1)‖ ^ 2 + ∑ k ∈ Ico 1 (m - 1), 2 * ‖S l k‖ ^ 2)

/-- fft.py 107-109, 119-121 -/
noncomputable def fftwEnergy (n0 n1 : ℕ) (S : ℕ → ℕ → ℂ) : ℝ := halfEnergy n0 (nk n1) (((n1 : ℝ) * n0) ^ 2) S

/-- correl.py 661: the correlation before `_like_fftshift`. -/
noncomputable def fftwRaw (n0 n1 : ℕ) (im0 im1 : ℕ → ℕ → ℝ) : Img ℝ :=
  ⟨n0, n1, fftwIfft n0 n1 (conjMul (fftwFft n0 n1 im0) (fftwFft n0 n1 im1))⟩

/-- correl.py 648-662: the two results of `CorrelFFTW.__call__` (`coef_norm_correl` is `(nx * ny)**2`, fft.py 108). -/
noncomputable def fftwCorrel (junk : ℕ → ℕ → ℝ) (n0 n1 : ℕ) (im0 im1 : ℕ → ℕ → ℝ) : Img ℝ × ℝ :=
  (Correl.likeFftshift junk (fftwRaw n0 n1 im0 im1),
    Real.sqrt (4 * fftwEnergy n0 n1 (fftwFft n0 n1 im0) * fftwEnergy n0 n1 (fftwFft n0 n1 im1)) *
      ((n1 : ℝ) * n0) ^ 2)

/-- correl.py 153-157: the correlation coefficient reported for a position. -/
noncomputable def coefficient (c : Img ℝ × ℝ) (i j : ℕ) : ℝ := if c.2 = 0 then 0 else c.1.get i j / c.2

end Verif.CorrelFft
