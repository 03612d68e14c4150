import Verif.Model.SpatialFft
import Verif.Props.FieldOps
import Verif.Props.Spectrum

/-!
# C128: spatial Fourier transform of a vector field

The coefficients returned by `compute_spatial_fft` are those of the returned wave numbers: the field at a position of the grid is the
sum of its components.
-/

namespace Verif
open Complex Finset Verif.PivGrid Verif.VectorField Verif.SpatialFft Verif.Spectrum Verif.Dft

/-- The field with the values `v` is, at the position `(x, y)`, the sum of the components with wave numbers `kx` (second index) and
`ky` (first index). -/
noncomputable def waves2 (c : Arr) (kx ky : Vec) (x y : ℝ) : ℂ :=
  ∑ l ∈ range ky.n, ∑ k ∈ range kx.n, c.get l k * Complex.exp (I * ((ky.get l * y + kx.get k * x : ℝ) : ℂ))

theorem sf_nested (ny nx : ℕ) (hy : 0 < ny) (hx : 0 < nx) (dy dx : ℝ) (hdy : 0 < dy) (hdx : 0 < dx) (s : ℕ → ℕ → ℂ) (l k : ℕ) :
    signalFft2 ny nx s l k = signalFft ny dy (fun i => signalFft nx dx (s i) k) l := by
  have hny : (ny : ℂ) ≠ 0 := by exact_mod_cast hy.ne'
  have hnx : (nx : ℂ) ≠ 0 := by exact_mod_cast hx.ne'
  have h1 : ((dy / lx ny dy : ℝ) : ℂ) = 1 / ny := by
    have : (dy : ℂ) ≠ 0 := by exact_mod_cast hdy.ne'
    unfold lx; push_cast; field_simp
  have h2 : ((dx / lx nx dx : ℝ) : ℂ) = 1 / nx := by
    have : (dx : ℂ) ≠ 0 := by exact_mod_cast hdx.ne'
    unfold lx; push_cast; field_simp
  unfold signalFft2 signalFft
  rw [fft2_eq, h1]
  simp only [h2]
  have h3 : fft ny (fun i => 1 / (nx : ℂ) * fft nx (s i) (shiftIdx nx k)) (shiftIdx ny l)
      = 1 / nx * fft ny (fun i => fft nx (s i) (shiftIdx nx k)) (shiftIdx ny l) := by
    simp only [fft]
    rw [mul_sum]
    apply sum_congr rfl
    intro i _
    ring
  rw [h3]
  push_cast
  field_simp

theorem sf_both (ny nx : ℕ) (hy : 0 < ny) (hx : 0 < nx) (dy dx : ℝ) (hdy : 0 < dy) (hdx : 0 < dx) (s : ℕ → ℕ → ℂ) (j i : ℕ)
    (hj : j < ny) (hi : i < nx) :
    ∑ l ∈ range ny, ∑ k ∈ range nx, signalFft2 ny nx s l k
      * Complex.exp (I * ((omega ny dy l * (j * dy) + omega nx dx k * (i * dx) : ℝ) : ℂ)) = s j i := by
  rw [sum_comm]
  rw [← C51_coefficients nx dx hdx (s j) i hi]
  apply sum_congr rfl
  intro k _
  have h := C51_coefficients ny dy hdy (fun i => signalFft nx dx (s i) k) j hj
  rw [← h, sum_mul]
  apply sum_congr rfl
  intro l _
  rw [sf_nested ny nx hy hx dy dx hdy hdx, mul_assoc, ← Complex.exp_add]
  congr 2
  push_cast
  ring

theorem sf_spacing (x : List ℚ) (a h : ℚ) (hx : ExactAxis x a h) (h2 : 2 ≤ x.length) : SpatialFft.spacing x = .ok (h : ℝ) := by
  have e1 : x[1]? = some x[1] := List.getElem?_eq_getElem (by omega)
  have e0 : x[0]? = some x[0] := List.getElem?_eq_getElem (by omega)
  have v1 := hx 1 _ e1
  have v0 := hx 0 _ e0
  unfold SpatialFft.spacing GridFinal.at'
  simp only [e1, e0]
  rw [v1, v0]
  congr 2
  push_cast; ring

theorem sf_positive (x : List ℚ) (a h : ℚ) (hx : ExactAxis x a h) (h2 : 2 ≤ x.length) (hasc : x.Pairwise (· < ·)) : 0 < h := by
  have e1 : x[1]? = some x[1] := List.getElem?_eq_getElem (by omega)
  have e0 : x[0]? = some x[0] := List.getElem?_eq_getElem (by omega)
  have v1 := hx 1 _ e1
  have v0 := hx 0 _ e0
  have := List.pairwise_iff_getElem.1 hasc 0 1 (by omega) (by omega) (by decide)
  rw [v1, v0] at this
  push_cast at this
  linarith

/-- C128, both directions, on a regular grid: the two components of the field at each position `(x, y)` of the grid are the sums of the
returned coefficients times `exp(i (kx (x - x0) + ky (y - y0)))`; there are as many wave numbers as coefficients. -/
theorem C128_both_partial (F : VField ℚ) (hF : GoodField F) (a b dx dy : ℚ) (hx : ExactAxis F.x a dx) (hy : ExactAxis F.y b dy) :
    ∃ R, spatialFft F .both = .ok (some R) ∧ R.vx.ny = R.second.n ∧ R.vx.nx = R.first.n ∧ R.vy.ny = R.second.n ∧ R.vy.nx = R.first.n
      ∧ R.first.n = F.x.length ∧ R.second.n = F.y.length
      ∧ ∀ (j i : Nat) (x y : ℚ), GridPoint F j i x y →
        waves2 R.vx R.first R.second ((x - a : ℚ) : ℝ) ((y - b : ℚ) : ℝ) = (F.vx.get j i : ℂ)
        ∧ waves2 R.vy R.first R.second ((x - a : ℚ) : ℝ) ((y - b : ℚ) : ℝ) = (F.vy.get j i : ℂ) := by
  have px := sf_positive F.x a dx hx hF.x2 hF.xAsc
  have py := sf_positive F.y b dy hy hF.y2 hF.yAsc
  have px' : (0 : ℝ) < (dx : ℝ) := by exact_mod_cast px
  have py' : (0 : ℝ) < (dy : ℝ) := by exact_mod_cast py
  have s := hF.shaped
  refine ⟨⟨fftBoth F.vx, fftBoth F.vy, waves F.x.length dx, waves F.y.length dy⟩, ?_, s.vx.1, s.vx.2, s.vy.1, s.vy.2, rfl, rfl, ?_⟩
  · simp only [spatialFft, sf_spacing F.x a dx hx hF.x2, sf_spacing F.y b dy hy hF.y2]
  · intro j i x y hp
    obtain ⟨hj, hi⟩ := hp.lt
    have ex := hx i x hp.1
    have ey := hy j y hp.2
    have ex' : ((x - a : ℚ) : ℝ) = (i : ℝ) * (dx : ℝ) := by rw [ex]; push_cast; ring
    have ey' : ((y - b : ℚ) : ℝ) = (j : ℝ) * (dy : ℝ) := by rw [ey]; push_cast; ring
    have nyp : 0 < F.y.length := by omega
    have nxp : 0 < F.x.length := by omega
    refine ⟨?_, ?_⟩
    · rw [ex', ey']
      have := sf_both F.y.length F.x.length nyp nxp dy dx py' px' (fun j i => (F.vx.get j i : ℂ)) j i hj hi
      simp only [waves2, waves, fftBoth, s.vx.1, s.vx.2]
      exact this
    · rw [ex', ey']
      have := sf_both F.y.length F.x.length nyp nxp dy dx py' px' (fun j i => (F.vy.get j i : ℂ)) j i hj hi
      simp only [waves2, waves, fftBoth, s.vy.1, s.vy.2]
      exact this

/-- C128, axis 0: for each column (position `x`, returned as the first coordinate), the profile along `y` is the sum of the
components of the wave numbers `ky`. -/
theorem C128_axis0_partial (F : VField ℚ) (hF : GoodField F) (b dy : ℚ) (hy : ExactAxis F.y b dy) :
    ∃ R, spatialFft F (.one 0) = .ok (some R) ∧ R.vx.ny = R.second.n ∧ R.second.n = F.y.length ∧ R.vx.nx = R.first.n
      ∧ ∀ (j i : Nat) (x y : ℚ), GridPoint F j i x y → R.first.get i = (x : ℝ)
        ∧ ∑ l ∈ range R.second.n, R.vx.get l i * Complex.exp (I * (R.second.get l : ℂ) * (((y - b : ℚ) : ℝ) : ℂ)) = (F.vx.get j i : ℂ)
        ∧ ∑ l ∈ range R.second.n, R.vy.get l i * Complex.exp (I * (R.second.get l : ℂ) * (((y - b : ℚ) : ℝ) : ℂ)) = (F.vy.get j i : ℂ) := by
  have py := sf_positive F.y b dy hy hF.y2 hF.yAsc
  have py' : (0 : ℝ) < (dy : ℝ) := by exact_mod_cast py
  have s := hF.shaped
  refine ⟨⟨fftAxis0 F.y.length dy F.vx, fftAxis0 F.y.length dy F.vy, coords F.x, waves F.y.length dy⟩, ?_, s.vx.1, rfl, s.vx.2, ?_⟩
  · simp only [spatialFft, if_true, sf_spacing F.y b dy hy hF.y2]
  · intro j i x y hp
    obtain ⟨hj, hi⟩ := hp.lt
    have ey := hy j y hp.2
    have ey' : ((y - b : ℚ) : ℝ) = (j : ℝ) * (dy : ℝ) := by rw [ey]; push_cast; ring
    refine ⟨by simp [coords, List.getD, hp.1], ?_, ?_⟩
    · have := C51_coefficients F.y.length dy py' (fun j => (F.vx.get j i : ℂ)) j hj
      simp only [waves, fftAxis0, s.vx.1, ey']
      exact this
    · have := C51_coefficients F.y.length dy py' (fun j => (F.vy.get j i : ℂ)) j hj
      simp only [waves, fftAxis0, s.vy.1, ey']
      exact this

/-- C128, axis 1: for each row (position `y`, returned as the second coordinate), the profile along `x` is the sum of the components of
the wave numbers `kx`. -/
theorem C128_axis1_partial (F : VField ℚ) (hF : GoodField F) (a dx : ℚ) (hx : ExactAxis F.x a dx) :
    ∃ R, spatialFft F (.one 1) = .ok (some R) ∧ R.vx.nx = R.first.n ∧ R.first.n = F.x.length ∧ R.vx.ny = R.second.n
      ∧ ∀ (j i : Nat) (x y : ℚ), GridPoint F j i x y → R.second.get j = (y : ℝ)
        ∧ ∑ k ∈ range R.first.n, R.vx.get j k * Complex.exp (I * (R.first.get k : ℂ) * (((x - a : ℚ) : ℝ) : ℂ)) = (F.vx.get j i : ℂ)
        ∧ ∑ k ∈ range R.first.n, R.vy.get j k * Complex.exp (I * (R.first.get k : ℂ) * (((x - a : ℚ) : ℝ) : ℂ)) = (F.vy.get j i : ℂ) := by
  have px := sf_positive F.x a dx hx hF.x2 hF.xAsc
  have px' : (0 : ℝ) < (dx : ℝ) := by exact_mod_cast px
  have s := hF.shaped
  refine ⟨⟨fftAxis1 F.x.length dx F.vx, fftAxis1 F.x.length dx F.vy, waves F.x.length dx, coords F.y⟩, ?_, s.vx.2, rfl, s.vx.1, ?_⟩
  · simp only [spatialFft, if_true, sf_spacing F.x a dx hx hF.x2, one_ne_zero, if_false]
  · intro j i x y hp
    obtain ⟨hj, hi⟩ := hp.lt
    have ex := hx i x hp.1
    have ex' : ((x - a : ℚ) : ℝ) = (i : ℝ) * (dx : ℝ) := by rw [ex]; push_cast; ring
    refine ⟨by simp [coords, List.getD, hp.2], ?_, ?_⟩
    · have := C51_coefficients F.x.length dx px' (fun i => (F.vx.get j i : ℂ)) i hi
      simp only [waves, fftAxis1, s.vx.2, ex']
      exact this
    · have := C51_coefficients F.x.length dx px' (fun i => (F.vy.get j i : ℂ)) i hi
      simp only [waves, fftAxis1, s.vy.2, ex']
      exact this

/-- Non-vacuity: the field of the solid rotation of `FieldOps.lean`. -/
example : ExactAxis solidRotation.x 0 2 ∧ ExactAxis solidRotation.y 0 1 := solidRotation_axes

/-- A field on an irregular grid: `x` is 0, 1, 3 and `vx` is 1 on the last column only. -/
def irregularField : VField ℚ :=
  ⟨[0, 1, 3], [0, 1], .num 0, ⟨2, 3, fun _ i => if i = 2 then 1 else 0⟩, ⟨2, 3, fun _ _ => 0⟩, .num 0, none, false⟩

theorem irregularField_good : GoodField irregularField :=
  ⟨⟨⟨rfl, rfl⟩, ⟨rfl, rfl⟩, trivial, trivial⟩, by decide +kernel, by decide +kernel, by decide, by decide⟩

/-- C128, irregular grids: `compute_spatial_fft` does not raise an error (`compute_rotz` and `compute_divh` do, C89), and the returned
coefficients are not those of the returned wave numbers: at the position `x = 3` of the grid, the sum of the components is 0 and the field
is 1. -/
theorem C128_irregular_fails : ∃ R, spatialFft irregularField (.one 1) = .ok (some R) ∧ irregularField.regular = false
    ∧ GridPoint irregularField 0 2 3 0
    ∧ ∑ k ∈ range R.first.n, R.vx.get 0 k * Complex.exp (I * (R.first.get k : ℂ) * (((3 - 0 : ℚ) : ℝ) : ℂ)) = 0
    ∧ irregularField.vx.get 0 2 = 1 := by
  have hs : SpatialFft.spacing irregularField.x = .ok 1 := by
    simp [SpatialFft.spacing, GridFinal.at', irregularField]
  refine ⟨⟨fftAxis1 3 1 irregularField.vx, fftAxis1 3 1 irregularField.vy, waves 3 1, coords irregularField.y⟩, ?_, rfl,
    ⟨rfl, rfl⟩, ?_, rfl⟩
  · simp only [spatialFft, one_ne_zero, if_false, if_true, hs]
    rfl
  · have h0 := C51_coefficients 3 1 one_pos (fun i => (irregularField.vx.get 0 i : ℂ)) 0 (by decide)
    have hz : ((irregularField.vx.get 0 0 : ℚ) : ℂ) = 0 := by simp [irregularField]
    rw [hz] at h0
    rw [← h0]
    apply sum_congr rfl
    intro k hk
    have hk' : k < 3 := mem_range.1 hk
    have he : Complex.exp (I * (omega 3 1 k : ℂ) * ((((3 - 0 : ℚ)) : ℝ) : ℂ)) = Complex.exp (I * (omega 3 1 k : ℂ) * (((0 : ℕ) : ℝ) * 1 : ℝ)) := by
      rw [C51_omega 3 1 k hk']
      have e1 : I * ((((k : ℝ) - ((3 / 2 : ℕ) : ℝ)) * dk 3 1 : ℝ) : ℂ) * ((((3 - 0 : ℚ)) : ℝ) : ℂ)
          = (((k : ℤ) - 1 : ℤ) : ℂ) * (2 * Real.pi * I) := by
        unfold dk lx
        push_cast
        norm_num
        ring
      rw [e1, Complex.exp_int_mul_two_pi_mul_I]
      simp
    have hcoef : (fftAxis1 3 1 irregularField.vx).get 0 k = signalFft 3 1 (fun i => (irregularField.vx.get 0 i : ℂ)) k := rfl
    show (fftAxis1 3 1 irregularField.vx).get 0 k * Complex.exp (I * (omega 3 1 k : ℂ) * ((((3 - 0 : ℚ)) : ℝ) : ℂ)) = _
    rw [he, hcoef]

/-- C128, other values of `axes` (for example `(1, 0)`, or `-1`): `None` is returned without an error. -/
theorem C128_axes_fails (F : VField ℚ) : spatialFft F .other = .ok none ∧ spatialFft F (.one (-1)) = .ok none := by
  refine ⟨rfl, ?_⟩
  simp [spatialFft]

end Verif
