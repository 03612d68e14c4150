import Mathlib.Data.Real.Sqrt
import Mathlib.Analysis.SpecialFunctions.Log.Basic
import Mathlib.LinearAlgebra.Matrix.Notation
import Mathlib.Data.Matrix.Mul
import Mathlib.Data.Finset.Lattice.Fold
import Verif.Model.LoopVectors

/-!
# Model of the sub-pixel methods

`/repo/src/fluidimage/calcul/subpix.py`: 16-61 `compute_subpix_2d_gaussian2`, 75-85 `SubPix.__init__`, 87-105
`prepare_subpix`, 107-218 `compute_subpix`.

Simplifications: the values of the correlation are real numbers (no rounding); the arithmetic with infinite and NaN
values is represented by the cases of `Depl`; `nsubpix` is a natural number; the arguments `method` and `nsubpix` of
`compute_subpix` are the ones of the object (what `apply_subpix` uses); the write of `1e-6` in the crop (166) is local
(`ravel` copies a crop which is narrower than the map).
-/

namespace Verif.Subpix
open Verif.LoopVectors (Method SubErr)

/-- A correlation map: `ny` lines and `nx` columns, value at the line `i0` and the column `i1`. -/
structure RMap where
  ny : Nat
  nx : Nat
  val : Int → Int → ℝ

/-- A displacement `(deplx, deply)` computed with floating-point numbers: finite, with at least one infinite component
and no NaN, or with a NaN. -/
inductive Depl where
  | fin (x y : ℝ)
  | inf
  | nan

/-- Indices of the lines and columns of the crop. -/
abbrev Crop (n : Nat) := Fin (2 * n + 1) × Fin (2 * n + 1) → ℝ

/-- 161-163, 190-192 (and 19 with `n = 1`): `correl[iy - n : iy + n + 1, ix - n : ix + n + 1]` -/
def crop (n : Nat) (c : RMap) (ix iy : Int) : Crop n :=
  fun p => c.val (iy - n + (p.1.val : Int)) (ix - n + (p.2.val : Int))

/-- 91-92 `xs = np.arange(-nsubpix, nsubpix + 1)`: value of index `i`. -/
def offset (n : Nat) (i : Fin (2 * n + 1)) : ℝ := (i.val : ℝ) - n

/-- 98-104: the matrix `M`, with a line for each point of the crop and the columns `X**2, Y**2, X, Y, 1`. -/
def design (n : Nat) : Matrix (Fin (2 * n + 1) × Fin (2 * n + 1)) (Fin 5) ℝ :=
  fun p k => ![offset n p.2 ^ 2, offset n p.1 ^ 2, offset n p.2, offset n p.1, 1] k

/-- 75-85: the constructor; the value is the attribute `n`, the error is the `ValueError`. -/
def construct (m : Method) (nsubpix : Option Nat) : Except Unit Nat :=
  match nsubpix with
  | none => .ok 1                                                        -- 88-90
  | some n => if m = .gaussian2 ∧ n ≠ 1 then .error () else .ok n

/-- A quotient, with both numerators over the same denominator. -/
noncomputable def quot (a b d : ℝ) : Depl :=
  if d = 0 then (if a = 0 ∨ b = 0 then .nan else .inf) else .fin (a / d) (b / d)

/-- 189-198: method "centroid" -/
noncomputable def centroid (n : Nat) (v : Crop n) : Depl :=
  quot (∑ p, offset n p.2 * v p) (∑ p, offset n p.1 * v p) (∑ p, v p)

/-- 165-166: the logarithm of the values, replaced by `1e-6` if they are not positive. -/
noncomputable def logClamped (v : ℝ) : ℝ := Real.log (if v ≤ 0 then 1 / 1000000 else v)

/-- 168-178: method "2d_gaussian", `pinv` is the attribute `Minv_subpix`; `none`: back to the centroid. -/
noncomputable def gaussian (n : Nat) (pinv : Matrix (Fin 5) (Fin (2 * n + 1) × Fin (2 * n + 1)) ℝ) (v : Crop n) :
    Option Depl :=
  let coef := pinv.mulVec (fun p => logClamped (v p))
  if coef 0 > 0 ∨ coef 1 > 0 then none                                   -- 169-172
  else if (coef 0 = 0 ∧ coef 2 = 0) ∨ (coef 1 = 0 ∧ coef 3 = 0) then none  -- 0 * inf is NaN, 179-182
  else if coef 0 = 0 ∨ coef 1 = 0 then some .inf
  else
    let sigmax := 1 / Real.sqrt (-2 * coef 0)
    let sigmay := 1 / Real.sqrt (-2 * coef 1)
    some (.fin (coef 2 * sigmax ^ 2) (coef 3 * sigmay ^ 2))

/-- 23-25 `correl_crop.min()` -/
noncomputable def minCrop (v : Crop 1) : ℝ := Finset.univ.inf' ⟨(0, 0), Finset.mem_univ _⟩ v

/-- 27-29 `correl_crop.max()` (after the subtraction of the minimum) -/
noncomputable def maxCrop (v : Crop 1) : ℝ := Finset.univ.sup' ⟨(0, 0), Finset.mem_univ _⟩ v

/-- 23-33: subtraction of the minimum, division by the maximum, `1e-8` instead of zero. -/
noncomputable def normalised (v : Crop 1) : Crop 1 :=
  let w : Crop 1 := fun p => v p - minCrop v
  let u : Crop 1 := fun p => w p / maxCrop w
  fun p => if u p = 0 then 1 / 100000000 else u p

/-- 35-60: the formulas, for the logarithms of the values (`c00`, which is not used, is omitted). -/
noncomputable def gaussian2Log (l : Crop 1) : Depl :=
  let c10 := (∑ p, offset 1 p.2 * l p) / 6
  let c01 := (∑ p, offset 1 p.1 * l p) / 6
  let c11 := (∑ p, offset 1 p.2 * offset 1 p.1 * l p) / 4
  let c20 := (∑ p, (3 * offset 1 p.2 ^ 2 - 2) * l p) / 6
  let c02 := (∑ p, (3 * offset 1 p.1 ^ 2 - 2) * l p) / 6
  quot (c11 * c01 - 2 * c10 * c02) (c11 * c10 - 2 * c01 * c20) (4 * c20 * c02 - c11 ^ 2)

open Classical in
/-- 16-61 `compute_subpix_2d_gaussian2`: with a constant crop, the division of line 29 gives NaN everywhere. -/
noncomputable def gaussian2 (v : Crop 1) : Depl :=
  if maxCrop (fun p => v p - minCrop v) = 0 then .nan
  else gaussian2Log (fun p => Real.log (normalised v p))

/-- 203 `deplx**2 + deply**2 > 2 * (0.5 + nsubpix) ** 2` -/
def TooLarge (n : Nat) (d : Depl) : Prop :=
  match d with
  | .fin x y => 2 * (1 / 2 + (n : ℝ)) ^ 2 < x ^ 2 + y ^ 2
  | .inf => True
  | .nan => False

/-- 218 `return deplx + ix, deply + iy` -/
def shift (ix iy : Int) (d : Depl) : Depl :=
  match d with
  | .fin x y => .fin (x + ix) (y + iy)
  | .inf => .inf
  | .nan => .nan

open Classical in
/-- 203-218, for the methods other than "2d_gaussian2" -/
noncomputable def finish (n : Nat) (ix iy : Int) (d : Depl) : Except SubErr Depl :=
  if TooLarge n d then .error .wrongSubpix else .ok (shift ix iy d)

open Classical in
/-- 107-218 `compute_subpix` -/
noncomputable def computeSubpix (m : Method) (n : Nat)
    (pinv : Matrix (Fin 5) (Fin (2 * n + 1) × Fin (2 * n + 1)) ℝ) (c : RMap) (ix iy : Int) : Except SubErr Depl :=
  if iy - n < 0 ∨ iy + n + 1 > c.ny ∨ ix - n < 0 ∨ ix + n + 1 > c.nx then .error .closeBoundary
  else
    let viaCentroid := finish n ix iy (centroid n (crop n c ix iy))
    match m with
    | .gaussian => match gaussian n pinv (crop n c ix iy) with
      | none => viaCentroid
      | some d => finish n ix iy d
    | .gaussian2 =>
      if TooLarge n (gaussian2 (crop 1 c ix iy)) then viaCentroid
      else .ok (shift ix iy (gaussian2 (crop 1 c ix iy)))
    | .centroid => viaCentroid
    | .noSubpix => finish n ix iy (.fin 0 0)

end Verif.Subpix
