import Verif.Model.Correl

/-!
# Model of the direct correlation

`/repo/src/fluidimage/calcul/correl.py`: 284-380 `correl_numpy` and 383-413 `CorrelPythran`.

Numbers are rationals (the code uses `float32`).  The norm (308), which is a square root, is not modelled.
`IndexError` models a read outside of an array: this is the behaviour in Python; the function compiled by Pythran reads
the memory after the array.
-/

namespace Verif.CorrelDirect
open Verif Verif.PivGrid Verif.Correl

/-- `im[i, j]` for one index: negative indices are from the end. -/
def pyIndex (n : Nat) (i : Int) : Option Nat :=
  if 0 ≤ i then (if i < n then some i.toNat else none)
  else if -(n : Int) ≤ i then some (i + n).toNat else none

/-- `im[i, j]` -/
def readAt (im : Img ℚ) (i j : Int) : Except PyErr ℚ :=
  match pyIndex im.ny i, pyIndex im.nx j with
  | some i, some j => .ok (im.get i j)
  | _, _ => .error .indexError

/-- The bounds of the loop in one direction: `nmax`, `n1dep`, `n0dep`. -/
structure Bounds where
  nmax : Int
  dep1 : Int
  dep0 : Int
deriving DecidableEq

/-- 319-321, 324-326, 355-357: displacements at most 0. -/
def negBounds (n0 n1 : Nat) (disp : Int) : Bounds :=
  ⟨n1 + min ((n0 : Int) / 2 - n1 / 2 + disp) 0, -(min ((n0 : Int) / 2 - n1 / 2 + disp) 0),
    max 0 ((n0 : Int) / 2 - n1 / 2 + disp)⟩

/-- 337-339, 350-352, 368-370: positive displacements. -/
def posBounds (n0 n1 : Nat) (disp : Int) : Bounds :=
  ⟨n1 - max ((n0 : Int) / 2 + n1 / 2 + disp - n0) 0, 0, (n0 : Int) / 2 - n1 / 2 + disp⟩

/-- The bounds used for the index `k` of the correlation: the loops 317-321, 322-326, 353-357 fill the indices
`0 … disp_max` with `disp = -disp_max + k`, the loops 335-339, 348-352, 366-370 the indices
`disp_max + 1 …` with `disp = k - disp_max`. -/
def bounds (n0 n1 dmax k : Nat) : Bounds :=
  if k ≤ dmax then negBounds n0 n1 (-(dmax : Int) + k) else posBounds n0 n1 ((k - (dmax + 1) : Nat) + 1)

/-- Accumulation of values, some of which may be errors. -/
def addAll : List (Except PyErr ℚ) → ℚ → Except PyErr ℚ
  | [], t => .ok t
  | .error e :: _, _ => .error e
  | .ok v :: l, t => addAll l (t + v)

/-- 331-332: one product. -/
def product (im0 im1 : Img ℚ) (b c : Bounds) (iy ix : Nat) : Except PyErr ℚ :=
  match readAt im1 (iy + b.dep1) (ix + c.dep1) with
  | .error e => .error e
  | .ok v1 => match readAt im0 (b.dep0 + iy) (c.dep0 + ix) with
    | .error e => .error e
    | .ok v0 => .ok (v1 * v0)

/-- 327-334, 340-347, 358-365, 371-378, and 379: one value of the correlation.  `0 / 0` is NaN. -/
def cell (im0 im1 : Img ℚ) (b c : Bounds) : Except PyErr (Option ℚ) :=
  match addAll ((List.range b.nmax.toNat).flatMap (fun iy => (List.range c.nmax.toNat).map (product im0 im1 b c iy))) 0 with
  | .error e => .error e
  | .ok t => .ok (if c.nmax * b.nmax = 0 then none
      else some (t / ((c.nmax * b.nmax : Int) : ℚ) * ((im1.ny * im1.nx : Nat) : ℚ)))

/-- The value of index `(i, j)`. -/
def cellAt (im0 im1 : Img ℚ) (dmax i j : Nat) : Except PyErr (Option ℚ) :=
  cell im0 im1 (bounds im0.ny im1.ny dmax i) (bounds im0.nx im1.nx dmax j)

/-- The exception of a result. -/
def errOf {α : Type} : Except PyErr α → Option PyErr
  | .error e => some e
  | .ok _ => none

/-- 284-380 `correl_numpy`: the correlation, or the exception of the first value which raises one. -/
def correlNumpy (im0 im1 : Img ℚ) (dmax : Nat) : Except PyErr Map :=
  match ((List.range (2 * dmax + 1)).flatMap (fun i => (List.range (2 * dmax + 1)).map (fun j => cellAt im0 im1 dmax i j))).findSome?
      errOf with
  | some e => .error e
  | none => .ok ⟨2 * dmax + 1, 2 * dmax + 1, fun i j => match cellAt im0 im1 dmax i j with | .ok v => v | .error _ => none⟩

/-- 388-413: object `CorrelPythran` made for the shapes of the images, and its call. -/
def pythranCall (dmax : Option ℚ) (im0 im1 : Img ℚ) : Except PyErr (Cls × Map) :=
  match pythranInit dmax im0.ny im0.nx im1.ny im1.nx with
  | .error e => .error e
  | .ok d => match correlNumpy im0 im1 d.toNat with
    | .error e => .error e
    | .ok c => .ok (⟨d, d, none, 3, 1⟩, c)

end Verif.CorrelDirect
