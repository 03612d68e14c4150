import Verif.Py.Basic
import Mathlib.Algebra.Order.Ring.Rat
import Mathlib.Algebra.Order.AbsoluteValue.Basic

/-!
# Model of the production of synthetic images

`/repo/src/fluidimage/synthetic.py`.  Simplifications: the numbers are rational numbers (the code uses 32-bit floats);
`gauss d2` is `exp(-(1 / part_size**2) * d2)`; `rand` and `randn` are the successive values of `np.random.rand()` and
`np.random.randn()` (one stream for each).
-/

namespace Verif.Synthetic
open Verif

/-- An image: its shape and its values (line, column). -/
structure Image where
  ny : Nat
  nx : Nat
  val : Nat → Nat → ℚ

/-- synthetic.py:25-33: the coordinates of the particles along one axis; `n` pixels, displacement `d`.
`xs.max()` and `xs.min()` of `arange(n)` are `n - 1` and `0`. -/
def positions (n : Nat) (d : ℚ) (rand : Nat → ℚ) (nb : Nat) : List ℚ :=
  let xmax := ((n : ℚ) - 1) + |d|
  let xmin := 0 - |d|
  (List.range nb).map (fun i => xmin + (xmax - xmin) * rand i)

/-- synthetic.py:35-43 `f`. -/
def intensity (gauss : ℚ → ℚ) (xparts yparts : List ℚ) (x y : ℚ) : ℚ :=
  ((xparts.zip yparts).map (fun p => gauss ((x - p.1) * (x - p.1) + (y - p.2) * (y - p.2)))).foldl (· + ·) 0

/-- synthetic.py:48-50: the noise is added only if `epsilon > 0`; `off` values of `randn` have been used before. -/
def addNoise (epsilon : ℚ) (randn : Nat → ℚ) (off : Nat) (im : Image) : Image :=
  if epsilon > 0 then { im with val := fun i j => im.val i j + epsilon * randn (off + (i * im.nx + j)) } else im

/-- synthetic.py:52-59: the central part of the second image. -/
def crop (im : Image) : Option (Nat × Nat) → Except PyErr Image
  | none => .ok im
  | some (ny1, nx1) =>
    if ny1 > im.ny ∨ nx1 > im.nx then .error .valueError
    else
      let ixfirst := (im.nx - nx1) / 2
      let iyfirst := (im.ny - ny1) / 2
      .ok ⟨ny1, nx1, fun i j => im.val (iyfirst + i) (ixfirst + j)⟩

/-- synthetic.py:6-61 `make_synthetic_images`; `max` of an empty array is a `ValueError`. -/
def make (gauss : ℚ → ℚ) (rand randn : Nat → ℚ) (dx dy : ℚ) (nb ny nx : Nat) (shape1 : Option (Nat × Nat))
    (epsilon : ℚ) : Except PyErr (Image × Image) :=
  if nx = 0 ∨ ny = 0 then .error .valueError
  else
    let xparts := positions nx dx rand nb
    let yparts := positions ny dy (fun i => rand (nb + i)) nb
    let im0 : Image := ⟨ny, nx, fun i j => intensity gauss xparts yparts (j : ℚ) (i : ℚ)⟩
    let im1 : Image := ⟨ny, nx, fun i j => intensity gauss xparts yparts ((j : ℚ) - dx) ((i : ℚ) - dy)⟩
    let im0 := addNoise epsilon randn 0 im0
    let im1 := addNoise epsilon randn (ny * nx) im1
    match crop im1 shape1 with
    | .error e => .error e
    | .ok im1 => .ok (im0, im1)

end Verif.Synthetic
