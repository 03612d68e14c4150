import Verif.Model.CorrelDirect
import Mathlib.Algebra.BigOperators.Group.Finset.Basic
import Mathlib.Algebra.BigOperators.Intervals
import Mathlib.Algebra.Order.BigOperators.Group.Finset

/-!
# Model of the correlations with scipy

`/repo/src/fluidimage/calcul/correl.py`: 454-495 (`CorrelScipySignal`), 498-510 (`CorrelScipyNdimage`), 571-593
(`_norm_images`).

Rational numbers instead of floats.  The functions of scipy are modelled from their documentation and their C code:
`scipy.signal.correlate2d` (the output of mode "same" starts at `(m - 1) // 2` pixels before the window, `m` being the size of
the second array) and `scipy.ndimage.correlate` (the output starts at `m // 2` pixels before the window).  The first array is at
least as large as the second one in both directions (checked in singlepass.py 78-84), so scipy does not swap them.
-/

namespace Verif.CorrelScipy
open Finset Verif Verif.PivGrid Verif.Correl

/-- The image, with a constant value outside (`fillvalue` of scipy.signal, `cval` of scipy.ndimage). -/
def extend (im : Img ℚ) (fill : ℚ) (y x : ℤ) : ℚ :=
  if 0 ≤ y ∧ y < im.ny ∧ 0 ≤ x ∧ x < im.nx then im.get y.toNat x.toNat else fill

/-- Sum of the products of the second array by the part of the first array which starts at `(sy, sx)`. -/
def sumWindow (im0 im1 : Img ℚ) (fill : ℚ) (sy sx : ℤ) : ℚ :=
  ∑ y ∈ range im1.ny, ∑ x ∈ range im1.nx, extend im0 fill (sy + y) (sx + x) * im1.get y x

/-- `scipy.signal.correlate2d(im0, im1, mode="same", fillvalue=fill)` -/
def correlate2dSame (im0 im1 : Img ℚ) (fill : ℚ) : Img ℚ :=
  ⟨im0.ny, im0.nx, fun i j => sumWindow im0 im1 fill ((i : ℤ) - ((im1.ny : ℤ) - 1) / 2) ((j : ℤ) - ((im1.nx : ℤ) - 1) / 2)⟩

/-- `scipy.signal.correlate2d(im0, im1, mode="valid")` -/
def correlate2dValid (im0 im1 : Img ℚ) : Img ℚ :=
  ⟨im0.ny - im1.ny + 1, im0.nx - im1.nx + 1, fun i j => sumWindow im0 im1 0 i j⟩

/-- `scipy.ndimage.correlate(im0, im1, mode="constant", cval=fill)` -/
def ndCorrelate (im0 im1 : Img ℚ) (fill : ℚ) : Img ℚ :=
  ⟨im0.ny, im0.nx, fun i j => sumWindow im0 im1 fill ((i : ℤ) - (im1.ny : ℤ) / 2) ((j : ℤ) - (im1.nx : ℤ) / 2)⟩

/-- `im.ravel()` -/
def ravel (im : Img ℚ) : List ℚ := (List.range im.ny).flatMap (fun i => (List.range im.nx).map (fun j => im.get i j))

/-- `im.min()` (`ValueError` for an empty array). -/
def imMin (im : Img ℚ) : Except PyErr ℚ :=
  match ravel im with
  | [] => .error .valueError
  | a :: l => .ok (l.foldl min a)

/-- 583-592: one of the sums of `_norm_images`, as a loop on the indices from 1. -/
def sumSquares (l : List ℚ) : Except PyErr ℚ :=
  match l with
  | [] => .error .indexError
  | a :: l => .ok (l.foldl (fun t x => t + x ^ 2) (a ^ 2))

/-- 588-591: the two sums in the same loop, on the indices of the first list (the lists have the same length). -/
def sumBoth : List ℚ → List ℚ → ℚ → ℚ → ℚ × ℚ
  | x :: l, y :: k, s, t => sumBoth l k (s + x ^ 2) (t + y ^ 2)
  | _, _, s, t => (s, t)

/-- 571-593 `_norm_images`: the square of the result (`sqrt(tmp0 * tmp1)`). -/
def normImagesSq (im0 im1 : Img ℚ) : Except PyErr ℚ :=
  match ravel im0, ravel im1 with
  | a :: l, b :: k =>
    if (a :: l).length ≠ (b :: k).length then
      match sumSquares (a :: l), sumSquares (b :: k) with
      | .ok s, .ok t => .ok (s * t)
      | .error e, _ => .error e
      | _, .error e => .error e
    else .ok ((sumBoth l k (a ^ 2) (b ^ 2)).1 * (sumBoth l k (a ^ 2) (b ^ 2)).2)
  | _, _ => .error .indexError

inductive Mode where
  | same | valid
deriving DecidableEq, Repr

/-- 459-465: the mode.  For another mode, the message is a string added to a list: `TypeError`. -/
def modeOf (mode : Option (List Char)) : Except PyErr Mode :=
  match mode with
  | none => .ok .same
  | some s => if s = "valid".toList then .ok .valid else if s = "same".toList then .ok .same else .error .typeError

/-- 467-483: the index of no displacement, in one direction: sizes `n` and `m` of the windows. -/
def signalIndex (mode : Mode) (n m : ℕ) : ℤ :=
  match mode with
  | .same => scipySignalCentre n
  | .valid => ((n : ℤ) - m) / 2

/-- 172-200, 459-483: a `CorrelScipySignal` object, for windows of shapes `(n0, n1)` and `(m0, m1)`. -/
def signalCls (mode : Mode) (n0 n1 m0 m1 radius nbPeaks : ℕ) : Cls :=
  ⟨signalIndex mode n1 m1, signalIndex mode n0 m0, none, radius, nbPeaks⟩

/-- 485-495: the two results of the call; the second one is the square of the norm. -/
def signalCall (mode : Mode) (im0 im1 : Img ℚ) : Except PyErr (Img ℚ × ℚ) :=
  match normImagesSq im0 im1 with
  | .error e => .error e
  | .ok norm2 => match mode with
    | .valid => .ok (correlate2dValid im0 im1, norm2)
    | .same => match imMin im1 with
      | .error e => .error e
      | .ok fill => .ok (correlate2dSame im0 im1 fill, norm2)

/-- 172-200, 503-504: a `CorrelScipyNdimage` object. -/
def ndimageCls (n0 n1 radius nbPeaks : ℕ) : Cls := ⟨scipyNdimageCentre n1, scipyNdimageCentre n0, none, radius, nbPeaks⟩

/-- 506-510: the two results of the call. -/
def ndimageCall (im0 im1 : Img ℚ) : Except PyErr (Img ℚ × ℚ) :=
  match imMin im1 with
  | .error e => .error e
  | .ok fill => .ok (ndCorrelate im0 im1 fill, ((ravel im1).map (fun x => x ^ 2)).sum)

/-- 308: square of the norm of `correl_numpy` (class `CorrelPythran`). -/
def pythranNormSq (im0 im1 : Img ℚ) : ℚ :=
  ((ravel im1).map (fun x => x ^ 2)).sum * ((ravel im0).map (fun x => x ^ 2)).sum

/-- The map given to the search of the peaks (no NaN). -/
def toMap (im : Img ℚ) : Map := ⟨im.ny, im.nx, fun i j => some (im.get i j)⟩

end Verif.CorrelScipy
