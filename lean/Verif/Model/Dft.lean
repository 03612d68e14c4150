import Mathlib.Analysis.SpecialFunctions.Complex.Circle
import Mathlib.Algebra.BigOperators.Ring.Finset

/-!
# Discrete Fourier transforms of NumPy

Definitions given in the documentation of `numpy.fft` (the algorithm of the fast transform and the rounding of floats are
not modelled).
-/

namespace Verif.Dft
open Complex Finset

/-- `exp(2 i π m / n)` -/
noncomputable def e (n : ℕ) (m : ℤ) : ℂ := Complex.exp (2 * Real.pi * I * m / n)

/-- `np.fft.fft` of a signal of length `n`: element `k`. -/
noncomputable def fft (n : ℕ) (s : ℕ → ℂ) (k : ℕ) : ℂ := ∑ j ∈ range n, s j * e n (-((j : ℤ) * k))

/-- `np.fft.ifft`: element `j`. -/
noncomputable def ifft (n : ℕ) (S : ℕ → ℂ) (j : ℕ) : ℂ := (∑ k ∈ range n, S k * e n ((j : ℤ) * k)) / n

/-- `np.fft.fft2` of an array of shape `(ny, nx)`: element `(l, k)`. -/
noncomputable def fft2 (ny nx : ℕ) (s : ℕ → ℕ → ℂ) (l k : ℕ) : ℂ :=
  ∑ i ∈ range ny, ∑ j ∈ range nx, s i j * (e ny (-((i : ℤ) * l)) * e nx (-((j : ℤ) * k)))

/-- `np.fft.ifft2`: element `(i, j)`. -/
noncomputable def ifft2 (ny nx : ℕ) (S : ℕ → ℕ → ℂ) (i j : ℕ) : ℂ :=
  (∑ l ∈ range ny, ∑ k ∈ range nx, S l k * (e ny ((i : ℤ) * l) * e nx ((j : ℤ) * k))) / (ny * nx)

/-- `np.fft.fftshift` of an array of length `n`: the element `i` of the result is the element `shiftIdx n i` of the array
(`np.roll` by `n // 2`). -/
def shiftIdx (n i : ℕ) : ℕ := if i < n / 2 then i + (n - n / 2) else i - n / 2

/-- `np.fft.fftfreq(n, d)`: element `k`. -/
noncomputable def fftfreq (n : ℕ) (d : ℝ) (k : ℕ) : ℝ :=
  let N := (n - 1) / 2 + 1
  if k < N then (k : ℝ) / (n * d) else ((k : ℝ) - N - (n / 2 : ℕ)) / (n * d)

end Verif.Dft
