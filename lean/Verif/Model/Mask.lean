import Verif.Py.Text
import Verif.Model.PivGrid

/-!
# Masks: cropping the images and the coordinates

Model of `src/fluidimage/data_objects/piv.py` (`get_slices_from_strcrop`, lines 71-75; `ArrayCouple.apply_mask`,
`_mask_array`, `_mask_arrays`, lines 137-160) and `src/fluidimage/works/with_mask.py` (lines 15-32).

Simplifications: the coordinates are integers (the code adds or subtracts an integer to NumPy arrays of numbers,
element by element); images are 2D; the two images of a couple are cropped with the same function, so one image
is modelled.
-/

namespace Verif.Mask
open Verif Verif.Text Verif.PivGrid

/-- A Python `slice`. -/
structure Slice where
  start : Option Int
  stop : Option Int
  step : Option Int
  deriving DecidableEq, Repr

/-- piv.py 73: `int(i) if i else None` -/
def bound (piece : List Char) : Except PyErr (Option Int) :=
  if piece.isEmpty then .ok none
  else match pyInt piece with
    | .ok i => .ok (some i)
    | .error e => .error e

/-- The generator of line 73: the pieces are converted in order, the first failure is raised. -/
def bounds : List (List Char) → Except PyErr (List (Option Int))
  | [] => .ok []
  | p :: ps => match bound p with
    | .error e => .error e
    | .ok b => match bounds ps with
      | .error e => .error e
      | .ok bs => .ok (b :: bs)

/-- Python `slice(*args)`: one argument is the stop, more than three is a `TypeError`. -/
def mkSlice : List (Option Int) → Except PyErr Slice
  | [b] => .ok ⟨none, b, none⟩
  | [a, b] => .ok ⟨a, b, none⟩
  | [a, b, c] => .ok ⟨a, b, c⟩
  | _ => .error .typeError

/-- piv.py 73: one part of the text. -/
def partSlice (part : List Char) : Except PyErr Slice :=
  match bounds (splitChar ':' (strip part)) with
  | .error e => .error e
  | .ok bs => mkSlice bs

/-- The generator of lines 72-75 on the parts. -/
def partSlices : List (List Char) → Except PyErr (List Slice)
  | [] => .ok []
  | p :: ps => match partSlice p with
    | .error e => .error e
    | .ok s => match partSlices ps with
      | .error e => .error e
      | .ok ss => .ok (s :: ss)

/-- piv.py 71-75 `get_slices_from_strcrop` -/
def slicesOf (strcrop : List Char) : Except PyErr (List Slice) := partSlices (splitChar ',' strcrop)

/-! ## Cropping an array -/

/-- CPython `PySlice_AdjustIndices`: a bound of a slice for a length `L`, limited to `[lo, hi]`. -/
def adjust (L : Nat) (lo hi : Int) (b : Int) : Int :=
  let b := if b < 0 then b + L else b
  if b < lo then lo else if hi < b then hi else b

/-- The indices selected by a slice in a dimension of length `L` (`range(*slice.indices(L))`). -/
def Slice.indices (s : Slice) (L : Nat) : Except PyErr (List Int) :=
  let step := s.step.getD 1
  if step = 0 then .error .valueError
  else if 0 < step then
    .ok (pyRange ((s.start.map (adjust L 0 L)).getD 0) ((s.stop.map (adjust L 0 L)).getD L) step)
  else
    .ok (pyRange ((s.start.map (adjust L (-1) (L - 1))).getD (L - 1))
      ((s.stop.map (adjust L (-1) (L - 1))).getD (-1)) step)

/-- The array made of given rows and columns of an array. -/
def take2 {α : Type} (im : Img α) (rows cols : List Int) : Img α :=
  ⟨rows.length, cols.length, fun y x => im.get (rows.getD y 0).toNat (cols.getD x 0).toNat⟩

/-- NumPy `array[indices]` for a 2D array and a tuple of slices: more than two is an `IndexError`, missing
dimensions are kept whole. -/
def cropArray {α : Type} (im : Img α) : List Slice → Except PyErr (Img α)
  | [] => .ok im
  | [sy] => match sy.indices im.ny with
    | .error e => .error e
    | .ok rows => .ok (take2 im rows ((List.range im.nx).map (fun i : Nat => (i : Int))))
  | [sy, sx] => match sy.indices im.ny with
    | .error e => .error e
    | .ok rows => match sx.indices im.nx with
      | .error e => .error e
      | .ok cols => .ok (take2 im rows cols)
  | _ => .error .indexError

/-- `params.mask`: the text of the crop, or `None`. -/
abbrev MaskParams := Option (List Char)

/-- piv.py 150-157 `_mask_array`, 159-160 `_mask_arrays`; the outer `none` is `params_mask is None`. -/
def maskArray {α : Type} (pm : Option MaskParams) (im : Img α) : Except PyErr (Img α) :=
  match pm with
  | none => .ok im
  | some none => .ok im
  | some (some strcrop) => match slicesOf strcrop with
    | .error e => .error e
    | .ok ss => cropArray im ss

/-- The two attributes of an `ArrayCouple` used by the masks. -/
structure Couple (α : Type) where
  paramsMask : Option MaskParams
  array : Img α

/-- piv.py 78-124 `ArrayCouple.__init__`: arrays given, no mask unless given. -/
def Couple.new {α : Type} (pm : Option MaskParams) (im : Img α) : Except PyErr (Couple α) :=
  match maskArray pm im with
  | .error e => .error e
  | .ok a => .ok ⟨pm, a⟩

/-- piv.py 137-148 `apply_mask` -/
def Couple.applyMask {α : Type} (c : Couple α) (pm : Option MaskParams) : Except PyErr (Couple α) :=
  match c.paramsMask, pm with
  | some _, none => .error .notImplementedError
  | some p, some q => if q = p then .ok c else .error .notImplementedError
  | none, pm => match maskArray pm c.array with
    | .error e => .error e
    | .ok a => .ok ⟨pm, a⟩

/-- Several works using the same couple, each with its own parameters. -/
def Couple.applyAll {α : Type} (c : Couple α) : List (Option MaskParams) → Except PyErr (Couple α)
  | [] => .ok c
  | pm :: pms => match c.applyMask pm with
    | .error e => .error e
    | .ok c' => c'.applyAll pms

/-! ## Coordinates -/

/-- with_mask.py 19-22: `xs = xs - slices[1].start` if it is not `None`. -/
def sub (x : Int) (start : Option Int) : Int := match start with
  | none => x
  | some s => x - s

/-- with_mask.py 28-31 -/
def add (x : Int) (start : Option Int) : Int := match start with
  | none => x
  | some s => x + s

/-- with_mask.py 16-23 `_xymasked_from_xyoriginalimage`; `slices[1]` of a tuple of length one is an `IndexError`. -/
def toMasked (strcrop : MaskParams) (x y : Int) : Except PyErr (Int × Int) :=
  match strcrop with
  | none => .ok (x, y)
  | some t => match slicesOf t with
    | .error e => .error e
    | .ok ss => match ss[1]?, ss[0]? with
      | some s1, some s0 => .ok (sub x s1.start, sub y s0.start)
      | _, _ => .error .indexError

/-- with_mask.py 25-32 `_xyoriginalimage_from_xymasked` -/
def toOriginal (strcrop : MaskParams) (x y : Int) : Except PyErr (Int × Int) :=
  match strcrop with
  | none => .ok (x, y)
  | some t => match slicesOf t with
    | .error e => .error e
    | .ok ss => match ss[1]?, ss[0]? with
      | some s1, some s0 => .ok (add x s1.start, add y s0.start)
      | _, _ => .error .indexError

end Verif.Mask
