import Mathlib.LinearAlgebra.Matrix.NonsingularInverse
import Mathlib.Analysis.SpecialFunctions.Log.Basic
import Mathlib.Data.Real.Basic

/-!
# Thin plate splines: matrices, weights, fields and gradients

Models `/repo/src/fluidimage/calcul/interpolate/thin_plate_spline.py`.  Numbers are real numbers (the code uses float64: rounding is
not modelled).  An array `[nb_dim, N]` of positions is a family of `N` points with `d` coordinates (the array is read by columns).
A row or a column of length `N + 1 + nb_dim` is indexed by `Fin N ⊕ (Unit ⊕ Fin d)`: the centers, then the constant, then the
coordinates, in the order of the code.
-/

namespace Verif.TpsWeights
open Matrix

/-- Index of a source: a center, the constant, or a coordinate.  `thin_plate_spline.py` 99-102 (`EM_ret`), 152 (`vstack`). -/
abbrev Src (N d : ℕ) := Fin N ⊕ (Unit ⊕ Fin d)

/-- The sum of the squared differences of the coordinates.  `thin_plate_spline.py` 81-84 and 146-148 (`EM += (Dsites - Centers)**2`). -/
def sqDist {d : ℕ} (p c : Fin d → ℝ) : ℝ := ∑ k, (p k - c k) ^ 2

/-- `if tmp != 0: EM[ic, inp] = tmp * np.log(tmp) / 2`; a zero stays zero.  `thin_plate_spline.py` 90-94 and 150-151. -/
noncomputable def kernel (s : ℝ) : ℝ := if s ≠ 0 then s * Real.log s / 2 else s

/-- `compute_tps_matrix(new_pos, centers)`: one row per source, one column per new position.  `thin_plate_spline.py` 38-104 (pythran)
and 107-153 (numpy), which compute the same entries. -/
noncomputable def tpsMatrix {M N d : ℕ} (newPos : Fin M → Fin d → ℝ) (centers : Fin N → Fin d → ℝ) : Matrix (Src N d) (Fin M) ℝ :=
  fun src m => match src with
    | .inl c => kernel (sqDist (newPos m) (centers c))
    | .inr (.inl _) => 1
    | .inr (.inr k) => newPos m k

/-- `smoothing_coef * np.eye(N, N)` followed by `nb_dim + 1` columns of zeros.  `thin_plate_spline.py` 204-205. -/
def smoothingMat {N d : ℕ} (coef : ℝ) : Matrix (Fin N) (Src N d) ℝ :=
  fun i src => match src with
    | .inl j => if i = j then coef else 0
    | .inr _ => 0

/-- `np.hstack([PM.T, np.zeros(...)])` with `PM = np.hstack([ones, centers.T])`.  `thin_plate_spline.py` 206, 210. -/
def momentRows {N d : ℕ} (centers : Fin N → Fin d → ℝ) : Matrix (Unit ⊕ Fin d) (Src N d) ℝ :=
  fun r src => match src with
    | .inl j => (match r with | .inl _ => 1 | .inr k => centers j k)
    | .inr _ => 0

/-- `IM = np.vstack([EM + smoothing_mat, ...])`, with `EM = compute_tps_matrix(centers, centers).T`.  `thin_plate_spline.py` 199,
207-212. -/
noncomputable def systemMat {N d : ℕ} (centers : Fin N → Fin d → ℝ) (coef : ℝ) : Matrix (Src N d) (Src N d) ℝ :=
  fun row src => match row with
    | .inl i => (tpsMatrix centers centers).transpose i src + smoothingMat coef i src
    | .inr r => momentRows centers r src

/-- `np.hstack([values, np.zeros(nb_dim + 1)])`.  `thin_plate_spline.py` 196. -/
def paddedValues {N d : ℕ} (values : Fin N → ℝ) : Src N d → ℝ := Sum.elim values fun _ => 0

/-- `compute_tps_weights`: `None` stands for the `LinAlgError` that `np.linalg.solve` raises for a singular matrix (in floating-point
arithmetic the pivot of a singular matrix can also be a tiny number: not modelled).  The pair is `(smoothed_values, tps_weights)`.
`thin_plate_spline.py` 168-216. -/
noncomputable def computeTpsWeights {N d : ℕ} (centers : Fin N → Fin d → ℝ) (values : Fin N → ℝ) (coef : ℝ) :
    Option ((Fin N → ℝ) × (Src N d → ℝ)) :=
  open Classical in
  if (systemMat centers coef).det = 0 then none
  else
    let weights := (systemMat centers coef)⁻¹ *ᵥ paddedValues values
    some ((tpsMatrix centers centers).transpose *ᵥ weights, weights)

/-- `ThinPlateSpline.compute_field`: `np.dot(U_tps, self.EM)`.  `thin_plate_spline.py` 269-271. -/
noncomputable def computeField {M N d : ℕ} (newPos : Fin M → Fin d → ℝ) (centers : Fin N → Fin d → ℝ) (weights : Src N d → ℝ) :
    Fin M → ℝ := weights ᵥ* tpsMatrix newPos centers

/-- `DM = DX * DX + DY * DY; DM[DM != 0] = np.log(DM[DM != 0]) + 1`.  `thin_plate_spline.py` 253-254. -/
noncomputable def logPlusOne (s : ℝ) : ℝ := if s ≠ 0 then Real.log s + 1 else s

/-- `DMX` of `compute_tps_matrices_dxy`: `DX` is the difference of the coordinates of index 1, and the row of ones is the first of the
two last rows.  `thin_plate_spline.py` 246-257. -/
noncomputable def matrixDx {M N : ℕ} (newPos : Fin M → Fin 2 → ℝ) (centers : Fin N → Fin 2 → ℝ) : Matrix (Src N 2) (Fin M) ℝ :=
  fun src m => match src with
    | .inl c =>
      let dx := newPos m 1 - centers c 1
      let dy := newPos m 0 - centers c 0
      dx * logPlusOne (dx * dx + dy * dy)
    | .inr (.inl _) => 0
    | .inr (.inr k) => if k = 0 then 1 else 0

/-- `DMY` of `compute_tps_matrices_dxy`.  `thin_plate_spline.py` 246-257. -/
noncomputable def matrixDy {M N : ℕ} (newPos : Fin M → Fin 2 → ℝ) (centers : Fin N → Fin 2 → ℝ) : Matrix (Src N 2) (Fin M) ℝ :=
  fun src m => match src with
    | .inl c =>
      let dx := newPos m 1 - centers c 1
      let dy := newPos m 0 - centers c 0
      dy * logPlusOne (dx * dx + dy * dy)
    | .inr (.inl _) => 0
    | .inr (.inr k) => if k = 0 then 0 else 1

/-- `ThinPlateSpline.compute_gradient`: `(np.dot(U_tps, self.DMX), np.dot(U_tps, self.DMY))`.  `thin_plate_spline.py` 273-275. -/
noncomputable def computeGradient {M N : ℕ} (newPos : Fin M → Fin 2 → ℝ) (centers : Fin N → Fin 2 → ℝ) (weights : Src N 2 → ℝ) :
    (Fin M → ℝ) × (Fin M → ℝ) := (weights ᵥ* matrixDx newPos centers, weights ᵥ* matrixDy newPos centers)

end Verif.TpsWeights
