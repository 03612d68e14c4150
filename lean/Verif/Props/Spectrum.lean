import Verif.Model.Spectrum
import Verif.Lemmas.Dft
import Mathlib.Tactic.NormNum
import Mathlib.Tactic.FieldSimp

/-!
# Spectra (C51)
-/

namespace Verif
open Complex Finset Verif.Dft Verif.Spectrum

theorem shiftIdx_lt (n i : ℕ) (h : i < n) : shiftIdx n i < n := by unfold shiftIdx; split <;> omega

/-- `fftshift` is a permutation of the indices. -/
theorem sum_shiftIdx {M : Type} [AddCommMonoid M] (n : ℕ) (f : ℕ → M) :
    ∑ i ∈ range n, f (shiftIdx n i) = ∑ k ∈ range n, f k := by
  apply Finset.sum_nbij' (shiftIdx n) (fun k => if k < n - n / 2 then k + n / 2 else k - (n - n / 2))
  · intro i hi; rw [mem_range] at *; exact shiftIdx_lt n i hi
  · intro k hk; rw [mem_range] at *; split <;> omega
  · intro i hi
    rw [mem_range] at hi
    unfold shiftIdx
    split
    · rw [if_neg (by omega)]; omega
    · rw [if_pos (by omega)]; omega
  · intro k hk
    rw [mem_range] at hk
    unfold shiftIdx
    split
    · rw [if_neg (by omega)]; omega
    · rw [if_pos (by omega)]; omega
  · intro i _; rfl

theorem normSq_fft (n : ℕ) (hn : 0 < n) (s : ℕ → ℂ) :
    ∑ k ∈ range n, ‖fft n s k‖ ^ 2 = n * ∑ j ∈ range n, ‖s j‖ ^ 2 := by
  have h := parseval n hn s
  simp only [Complex.mul_conj, Complex.normSq_eq_norm_sq] at h
  exact_mod_cast h

theorem normSq_fft2 (ny nx : ℕ) (hy : 0 < ny) (hx : 0 < nx) (s : ℕ → ℕ → ℂ) :
    ∑ l ∈ range ny, ∑ k ∈ range nx, ‖fft2 ny nx s l k‖ ^ 2
      = (ny * nx) * ∑ i ∈ range ny, ∑ j ∈ range nx, ‖s i j‖ ^ 2 := by
  have h := parseval2 ny nx hy hx s
  simp only [Complex.mul_conj, Complex.normSq_eq_norm_sq] at h
  exact_mod_cast h

/-- The integral of the one-dimensional spectrum is half the mean square of the signal. -/
theorem C51_half_mean_square_partial (n : ℕ) (hn : 0 < n) (dx : ℝ) (hdx : 0 < dx) (s : ℕ → ℂ) :
    (∑ i ∈ range n, psd n dx s i) * dk n dx = 1 / 2 * ((∑ j ∈ range n, ‖s j‖ ^ 2) * dx / lx n dx) := by
  have hn' : (0 : ℝ) < n := by exact_mod_cast hn
  have hdk : dk n dx ≠ 0 := by
    unfold dk lx
    have := Real.pi_pos
    positivity
  have h1 : ∀ i ∈ range n, psd n dx s i = 0.5 / dk n dx * (1 / n ^ 2) * ‖fft n s (shiftIdx n i)‖ ^ 2 := by
    intro i _
    unfold psd signalFft
    rw [norm_mul, Complex.norm_real, mul_pow, Real.norm_eq_abs, sq_abs]
    unfold lx
    have : dx / (n * dx) = 1 / n := by field_simp
    rw [this]
    ring
  rw [sum_congr rfl h1, ← mul_sum, sum_shiftIdx n (fun k => ‖fft n s k‖ ^ 2), normSq_fft n hn]
  unfold lx
  field_simp
  norm_num
  ring

/-- C51 (the documented normalisation) fails for every signal that is not zero. -/
theorem C51_documented_fails (n : ℕ) (hn : 0 < n) (dx : ℝ) (hdx : 0 < dx) (s : ℕ → ℂ) (j : ℕ) (hj : j < n)
    (hs : s j ≠ 0) :
    (∑ j ∈ range n, ‖s j‖ ^ 2) * dx / lx n dx ≠ (∑ i ∈ range n, psd n dx s i) * dk n dx := by
  rw [C51_half_mean_square_partial n hn dx hdx s]
  have hpos : 0 < ∑ j ∈ range n, ‖s j‖ ^ 2 := by
    apply Finset.sum_pos' (fun i _ => by positivity)
    exact ⟨j, mem_range.2 hj, by positivity⟩
  have hn' : (0 : ℝ) < n := by exact_mod_cast hn
  have : 0 < (∑ j ∈ range n, ‖s j‖ ^ 2) * dx / lx n dx := by unfold lx; positivity
  intro hc
  linarith

example : (1 : ℂ) ≠ 0 := one_ne_zero

/-- C51, the pulsations: `omega` is the regular axis `(i - n // 2) dk`, in increasing order. -/
theorem C51_omega (n : ℕ) (dx : ℝ) (i : ℕ) (hi : i < n) :
    omega n dx i = ((i : ℝ) - (n / 2 : ℕ)) * dk n dx := by
  unfold omega fftfreq shiftIdx dk lx
  by_cases h : i < n / 2
  · rw [if_pos h]
    simp only
    rw [if_neg (by omega), Nat.cast_add, Nat.cast_sub (by omega)]
    have : (((n - 1) / 2 + 1 : ℕ) : ℝ) = n - (n / 2 : ℕ) := by
      rw [eq_sub_iff_add_eq, ← Nat.cast_add]
      congr 1; omega
    rw [this]
    ring
  · rw [if_neg h]
    simp only
    rw [if_pos (by omega), Nat.cast_sub (by omega)]
    ring

/-- C51, the coefficients: `signal_fft[i]` is the coefficient of the pulsation `omega[i]`, so that the signal is the sum of
its components (`x_j = x_0 + j dx`). -/
theorem C51_coefficients (n : ℕ) (dx : ℝ) (hdx : 0 < dx) (s : ℕ → ℂ) (j : ℕ) (hj : j < n) :
    ∑ i ∈ range n, signalFft n dx s i * Complex.exp (I * (omega n dx i : ℂ) * ((j : ℝ) * dx : ℝ)) = s j := by
  have hn : 0 < n := by omega
  have hnc : (n : ℂ) ≠ 0 := by exact_mod_cast hn.ne'
  have hdc : (dx : ℂ) ≠ 0 := by exact_mod_cast hdx.ne'
  have hinv := ifft_fft n hn s j hj
  unfold ifft at hinv
  rw [← hinv, ← sum_shiftIdx n (fun k => fft n s k * e n ((j : ℤ) * k)), sum_div]
  apply sum_congr rfl
  intro i hi
  have hi' := mem_range.1 hi
  have h1 : ((dx / lx n dx : ℝ) : ℂ) = 1 / n := by
    unfold lx; push_cast; field_simp
  have h2 : Complex.exp (I * (omega n dx i : ℂ) * ((j : ℝ) * dx : ℝ)) = e n ((j : ℤ) * (shiftIdx n i : ℕ)) := by
    have key : Complex.exp (I * (omega n dx i : ℂ) * ((j : ℝ) * dx : ℝ)) = e n ((j : ℤ) * ((i : ℤ) - (n / 2 : ℕ))) := by
      rw [C51_omega n dx i hi']
      unfold e dk lx
      generalize n / 2 = m
      congr 1
      push_cast
      field_simp
    rw [key]
    unfold shiftIdx
    by_cases h : i < n / 2
    · rw [if_pos h]
      have : (j : ℤ) * ((i + (n - n / 2) : ℕ) : ℤ) = (j : ℤ) * ((i : ℤ) - (n / 2 : ℕ)) + n * j := by
        rw [Nat.cast_add, Nat.cast_sub (by omega)]; ring
      rw [this, e_period n hn]
    · rw [if_neg h, Nat.cast_sub (by omega)]
  unfold signalFft
  rw [h1, h2]
  ring

/-- C51 in two dimensions: the integral of the spectrum is half the mean square of the signal (the energy). -/
theorem C51_energy_2d (ny nx : ℕ) (hy : 0 < ny) (hx : 0 < nx) (dy dx : ℝ) (hdy : 0 < dy) (hdx : 0 < dx) (s : ℕ → ℕ → ℂ) :
    (∑ i ∈ range ny, ∑ j ∈ range nx, psd2 ny nx dy dx s i j) * dk nx dx * dk ny dy
      = 1 / 2 * ((∑ i ∈ range ny, ∑ j ∈ range nx, ‖s i j‖ ^ 2) / (ny * nx)) := by
  have hy' : (0 : ℝ) < ny := by exact_mod_cast hy
  have hx' : (0 : ℝ) < nx := by exact_mod_cast hx
  have hpi := Real.pi_pos
  have hdkx : dk nx dx ≠ 0 := by unfold dk lx; positivity
  have hdky : dk ny dy ≠ 0 := by unfold dk lx; positivity
  have h1 : ∀ i ∈ range ny, ∑ j ∈ range nx, psd2 ny nx dy dx s i j
      = 0.5 / (dk nx dx * dk ny dy) * (1 / (nx * ny) ^ 2) *
        ∑ j ∈ range nx, ‖fft2 ny nx s (shiftIdx ny i) (shiftIdx nx j)‖ ^ 2 := by
    intro i _
    rw [mul_sum]
    apply sum_congr rfl
    intro j _
    unfold psd2 signalFft2
    rw [norm_mul, Complex.norm_real, mul_pow, Real.norm_eq_abs, sq_abs]
    ring
  rw [sum_congr rfl h1, ← mul_sum]
  have h2 : ∀ i ∈ range ny, ∑ j ∈ range nx, ‖fft2 ny nx s (shiftIdx ny i) (shiftIdx nx j)‖ ^ 2
      = ∑ k ∈ range nx, ‖fft2 ny nx s (shiftIdx ny i) k‖ ^ 2 :=
    fun i _ => sum_shiftIdx nx (fun k => ‖fft2 ny nx s (shiftIdx ny i) k‖ ^ 2)
  rw [sum_congr rfl h2, sum_shiftIdx ny (fun l => ∑ k ∈ range nx, ‖fft2 ny nx s l k‖ ^ 2), normSq_fft2 ny nx hy hx]
  field_simp
  norm_num
  ring

example : (0 : ℕ) < 4 ∧ (0 : ℝ) < 1 / 2 := ⟨by decide, by norm_num⟩

end Verif
