import Mathlib.Data.Rat.Floor
import Verif.Model.TimeFormat

/-!
# Model of the grid of vectors and of the interrogation windows of the PIV

`/repo/src/fluidimage/works/piv/singlepass.py`: 108-141 (`_prepare_with_image`), 196-208 (`_pad_images`), 248-260 and
822-870 (`_calcul_positions_vectors_subimages`), 363-389 (`_init_crop`), 391-407 (`_crop_im0`, `_crop_im1`).

Positions are integers (the code has machine integers).  Pixels are integers; `np.ascontiguousarray(.., float32)` (397,
406) is not modelled.
-/

namespace Verif.PivGrid
open Verif Verif.TimeFormat

/-- 369, 380: number of pixels of the window before its centre. -/
def cropStart (n : Nat) : Nat := n / 2

/-- 370-378, 381-389: number of pixels of the window from its centre. -/
def cropStop (n : Nat) : Nat := if n % 2 = 1 then n / 2 + 1 else n / 2

/-- 116-117: step between vectors; `np.round` rounds halves to even.  The product of floats is exact in the model. -/
def gridStep (overlap : ℚ) (n : Nat) : Int := n - roundEven (overlap * n)

/-- 121-133, one direction: `len` pixels, window of `n` pixels.  `step // 2.5` is the floor of `2 step / 5`. -/
def gridPositions (len n : Nat) (step : Int) : Except PyErr (List Int) :=
  let imax : Int := len - cropStop n
  let ivecs := pyRange (cropStart n) imax step
  match ivecs.getLast? with
  | none => .error .indexError
  | some last => if imax - last > 2 * step / 5 then .ok (ivecs ++ [imax]) else .ok ivecs

/-- Attributes `ixvecs`, `iyvecs`, `ixvecs_grid`, `iyvecs_grid` (the last two as a list of points `(x, y)`). -/
structure Grid where
  ixvecs : List Int
  iyvecs : List Int
  points : List (Int × Int)
deriving DecidableEq

/-- 108-141 `_prepare_with_image`.  `np.meshgrid` followed by `flatten`: rows one after the other. -/
def prepare (lenY lenX n0 n1 : Nat) (overlap : ℚ) : Except PyErr Grid :=
  let stepy := gridStep overlap n0
  let stepx := gridStep overlap n1
  if ¬ (1 ≤ stepy) then .error .assertionError
  else if ¬ (1 ≤ stepx) then .error .assertionError
  else match gridPositions lenX n1 stepx with
    | .error e => .error e
    | .ok xs => match gridPositions lenY n0 stepy with
      | .error e => .error e
      | .ok ys => .ok ⟨xs, ys, ys.flatMap (fun y => xs.map (fun x => (x, y)))⟩

/-! ## Images and windows -/

/-- A 2D array. -/
structure Img (α : Type) where
  ny : Nat
  nx : Nat
  get : Nat → Nat → α

/-- Normalisation of one bound of a Python slice for a length `L`. -/
def sliceBound (L : Nat) (a : Int) : Nat :=
  if a < 0 then (a + L).toNat else min a.toNat L

/-- NumPy `im[y0:y1, x0:x1]` -/
def Img.slice {α : Type} (im : Img α) (y0 y1 x0 x1 : Int) : Img α :=
  let ly := sliceBound im.ny y0
  let lx := sliceBound im.nx x0
  ⟨sliceBound im.ny y1 - ly, sliceBound im.nx x1 - lx, fun i j => im.get (ly + i) (lx + j)⟩

/-- 391-407 `_crop_im0`, `_crop_im1` for windows of shape `(n0, n1)`. -/
def crop {α : Type} (n0 n1 : Nat) (ix iy : Int) (im : Img α) : Img α :=
  im.slice (iy - cropStart n0) (iy + cropStop n0) (ix - cropStart n1) (ix + cropStop n1)

/-- 204: `npad`. -/
def npad (n0 n1 : Nat) : Nat := max (max (cropStart n0) (cropStart n1)) (max (cropStop n0) (cropStop n1))

/-- 206-207: the image minus its minimum `m`, with `p` zeros on each side. -/
def pad (p : Nat) (m : Int) (im : Img Int) : Img Int :=
  ⟨im.ny + 2 * p, im.nx + 2 * p, fun i j =>
    if p ≤ i ∧ i < im.ny + p ∧ p ≤ j ∧ j < im.nx + p then im.get (i - p) (j - p) - m else 0⟩

/-- 291-294: the test of the shape of the window. -/
def shapeOk {α : Type} (n0 n1 : Nat) (im : Img α) : Bool := decide (im.ny = n0 ∧ im.nx = n1)

/-- The window used for a vector, from the position in the padded image; `none` is the error "Bad im_crop shape.". -/
def window (n0 n1 : Nat) (ixPad iyPad : Int) (impad : Img Int) : Option (Img Int) :=
  let c := crop n0 n1 ixPad iyPad impad
  if shapeOk n0 n1 c then some c else none

/-! ## Displaced windows -/

/-- The positions computed for one vector: reported position, centres of the windows in images 0 and 1 (not padded). -/
structure Centres where
  xs : ℚ
  ys : ℚ
  ix0 : Int
  iy0 : Int
  ix1 : Int
  iy1 : Int
deriving DecidableEq

/-- 830-837, 842-845, 852-855: is the point outside of the image? -/
def outside (lenY lenX : Nat) (ix iy : Int) : Prop := ix > lenX ∨ iy > lenY ∨ ix < 0 ∨ iy < 0

instance (lenY lenX : Nat) (ix iy : Int) : Decidable (outside lenY lenX ix iy) := by
  unfold outside; infer_instance

/-- 822-863, for one vector of the grid and an estimated displacement. -/
def centres (lenY lenX : Nat) (gx gy dx dy : Int) : Centres :=
  let ix0 := gx - dx / 2
  let iy0 := gy - dy / 2
  let ix1 := ix0 + dx
  let iy1 := iy0 + dy
  let (ix0, iy0, ix1, iy1) :=
    if outside lenY lenX ix1 iy1 then (gx - dx, gy - dy, gx, gy)
    else if outside lenY lenX ix0 iy0 then (gx, gy, gx + dx, gy + dy)
    else (ix0, iy0, ix1, iy1)
  ⟨((ix0 + ix1 : Int) : ℚ) / 2, ((iy0 + iy1 : Int) : ℚ) / 2, ix0, iy0, ix1, iy1⟩

end Verif.PivGrid
