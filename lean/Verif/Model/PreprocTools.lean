import Verif.Model.PivGrid
import Mathlib.Analysis.Complex.Trigonometric
import Mathlib.Analysis.SpecialFunctions.Sqrt
import Mathlib.Algebra.BigOperators.Group.List.Basic

/-!
# Model of the preprocessing tools

`/repo/src/fluidimage/works/preproc/toolbox.py` 92-119 (`apply`), `io.py` 46-64 (`iterate_multiple_imgs`), 67-83
(`multiple_imgs_as_ndarray`), `_toolbox_py.py` 65-256 (filters), 264-289 (`global_threshold`), 331-355
(`rescale_intensity_tanh`), `_toolbox_cv.py` 31-60 (`sliding_median`), 95-115 (`global_threshold`).

Real numbers instead of floats (no NaN).  The functions of scipy and of OpenCV used by these tools are modelled from their
documentations; the tools based on scikit-image are not modelled.
-/

namespace Verif.PreprocTools
open Verif.PivGrid

inductive Err where
  | attributeError
  | keyError
  | valueError
  | typeError
  | indexError
  | overflow
  | runtime
deriving DecidableEq

/-! ## `toolbox.py` -/

/-- Parameters of one tool: `enable` and the arguments of the function. -/
structure ToolParams (κ : Type) where
  enable : Bool
  kwargs : κ

/-- `params.tools`: 39-41 the attributes, 57 the children.  `children name = none`: no such child. -/
structure Params (κ : Type) where
  available : List String
  sequence : Option (List String)
  children : String → Option (ToolParams κ)

/-- 107-117: the loop over the tools.  `tools` is the dictionary of the class (85). -/
def applyLoop {κ ι : Type} (children : String → Option (ToolParams κ)) (tools : String → Option (κ → ι → Except Err ι)) :
    List String → ι → Except Err ι
  | [], img => .ok img
  | tool :: sequence, img =>
    match children tool with
    | none => .error .attributeError
    | some p =>
      if p.enable then
        match tools tool with
        | none => .error .keyError
        | some f =>
          match f p.kwargs img with
          | .error e => .error e
          | .ok img => applyLoop children tools sequence img
      else applyLoop children tools sequence img

/-- 92-119 `apply` -/
def apply {κ ι : Type} (params : Params κ) (tools : String → Option (κ → ι → Except Err ι)) (img : ι) : Except Err ι :=
  match params.sequence with
  | none => applyLoop params.children tools params.available img
  | some sequence => applyLoop params.children tools sequence img

/-! ## Arrays -/

/-- Types of arrays: floats, or integers between two bounds. -/
inductive DType where
  | float
  | int (lo hi : ℤ)
deriving DecidableEq

def uint8 : DType := .int 0 255

/-- A number given by the user: a Python `int` or a Python `float`. -/
inductive Num where
  | int (z : ℤ)
  | float (x : ℝ)

noncomputable def Num.val : Num → ℝ
  | .int z => z
  | .float x => x

/-- An image. -/
structure Arr where
  dtype : DType
  im : Img ℝ

/-- A 3D array: a list of images with the same type. -/
structure Stack where
  dtype : DType
  ims : List (Img ℝ)

/-- Truncation towards 0 (conversion from a float to an integer). -/
noncomputable def trunc (x : ℝ) : ℤ := if 0 ≤ x then ⌊x⌋ else ⌈x⌉

/-- Conversion of a number when it is assigned in an array.  numpy 2: an integer out of the bounds is an error.  A float
out of the bounds gives an unspecified value: it is an error in the model. -/
noncomputable def convert (d : DType) (v : Num) : Except Err ℝ :=
  match d, v with
  | .float, v => .ok v.val
  | .int lo hi, .int z => if lo ≤ z ∧ z ≤ hi then .ok z else .error .overflow
  | .int lo hi, .float x => if lo ≤ trunc x ∧ trunc x ≤ hi then .ok (trunc x) else .error .overflow

/-- `io.py` 59-64: the loop over the images. -/
def iterateLoop (d : DType) (tool : Arr → Except Err Arr) : List (Img ℝ) → Except Err (List (Img ℝ))
  | [] => .ok []
  | im :: ims =>
    match tool ⟨d, im⟩ with
    | .error e => .error e
    | .ok out =>
      match iterateLoop d tool ims with
      | .error e => .error e
      | .ok outs => .ok (out.im :: outs)

/-- `io.py` 46-64 `iterate_multiple_imgs`, for a 3D array: the result is an array of floats. -/
def iterate (tool : Arr → Except Err Arr) (s : Stack) : Except Err Stack :=
  match iterateLoop s.dtype tool s.ims with
  | .error e => .error e
  | .ok outs => .ok ⟨.float, outs⟩

/-! ## `global_threshold` -/

/-- 279-286 -/
def defaultMaxima (d : DType) : Num :=
  match d with
  | .float => .int 65535
  | .int _ hi => .int hi

/-- 264-289 `global_threshold` (without the decorator). -/
noncomputable def globalThreshold (minima : Num) (maxima : Option Num) (a : Arr) : Except Err Arr :=
  let maxima := maxima.getD (defaultMaxima a.dtype)
  match convert a.dtype minima with
  | .error e => .error e
  | .ok lo =>
    let im1 : Img ℝ := ⟨a.im.ny, a.im.nx, fun y x => if a.im.get y x < minima.val then lo else a.im.get y x⟩
    match convert a.dtype maxima with
    | .error e => .error e
    | .ok hi => .ok ⟨a.dtype, ⟨im1.ny, im1.nx, fun y x => if im1.get y x > maxima.val then hi else im1.get y x⟩⟩

/-- `_toolbox_cv.py` 95-115 `global_threshold`: `THRESH_TRUNC`, then `THRESH_TOZERO` (images of floats). -/
noncomputable def globalThresholdCV (minima maxima : ℝ) (a : Arr) : Arr :=
  ⟨a.dtype, ⟨a.im.ny, a.im.nx, fun y x =>
    let v := if a.im.get y x > maxima then maxima else a.im.get y x
    if v > minima then v else 0⟩⟩

/-! ## Filters with windows (scipy.ndimage) -/

inductive Mode where
  | reflect
  | constant
  | nearest
  | mirror
  | wrap
deriving DecidableEq

/-- Index in an axis of length `n` of the position `i`; `none`: outside the array, the value is 0 (mode "constant"). -/
def Mode.index (m : Mode) (n : ℕ) (i : ℤ) : Option ℕ :=
  match m with
  | .reflect => let j := (i % (2 * n)).toNat; some (if j < n then j else 2 * n - 1 - j)
  | .constant => if 0 ≤ i ∧ i < n then some i.toNat else none
  | .nearest => some (if i < 0 then 0 else if i < n then i.toNat else n - 1)
  | .mirror => if n = 1 then some 0 else
      let j := (i % (2 * (n - 1) : ℕ)).toNat; some (if j < n then j else 2 * (n - 1) - j)
  | .wrap => some (i % n).toNat

/-- The positions of the window of `size` points around `i`. -/
def window (m : Mode) (n size i : ℕ) : List (Option ℕ) :=
  (List.range size).map fun k : ℕ => m.index n ((i : ℤ) + k - (size / 2 : ℕ))

/-- Value of an image at a position of a window. -/
def valueAt (im : Img ℝ) (y x : Option ℕ) : ℝ :=
  match y, x with
  | some y, some x => im.get y x
  | _, _ => 0

/-- The values in the window around a pixel of an image. -/
def windowVals (m : Mode) (wy wx : ℕ) (im : Img ℝ) (y x : ℕ) : List ℝ :=
  (window m im.ny wy y).flatMap fun a => (window m im.nx wx x).map fun b => valueAt im a b

/-- The values in the window around a pixel of one of the images (mode "reflect"). -/
def windowVals3 (wt wy wx : ℕ) (ims : List (Img ℝ)) (t y x : ℕ) : List ℝ :=
  (window .reflect ims.length wt t).flatMap fun i =>
    match i.bind fun i => ims[i]? with
    | none => []
    | some im => windowVals .reflect wy wx im y x

/-- The values in increasing order. -/
noncomputable def sorted (l : List ℝ) : List ℝ := l.mergeSort fun a b => decide (a ≤ b)

/-- What is subtracted: 87, 207 the median, 122, 233 a percentile, 151, 255 the minimum. -/
inductive Rank where
  | median
  | minimum
  | percentile (p : ℝ)

/-- Rank in a window of `n` points.  (`scipy.ndimage`: a negative percentile is counted from 100.) -/
noncomputable def Rank.index (r : Rank) (n : ℕ) : Except Err ℕ :=
  match r with
  | .median => .ok (n / 2)
  | .minimum => .ok 0
  | .percentile p =>
    let p := if p < 0 then p + 100 else p
    if p < 0 ∨ 100 < p then .error .runtime
    else if p = 100 then .ok (n - 1)
    else .ok ⌊(n : ℝ) * p / 100⌋₊

/-- 87-91, 122-126, 151-155: `img - weight * filter(img)`, and the negative values set to 0.  The weight is a float: the
arrays of integers are converted (see `slidingInt` for an integer weight). -/
noncomputable def sliding (r : Rank) (weight : ℝ) (wy wx : ℕ) (m : Mode) (a : Arr) : Except Err Arr :=
  if wy * wx = 0 then .error .runtime
  else match r.index (wy * wx) with
    | .error e => .error e
    | .ok k => .ok ⟨.float, ⟨a.im.ny, a.im.nx, fun y x =>
        let v := a.im.get y x - weight * (sorted (windowVals m wy wx a.im y x)).getD k 0
        if v < 0 then 0 else v⟩⟩

/-- The same with an integer weight and an array of unsigned integers of `2 ^ nbits` values: arithmetic of the type of the
array, then no value is negative. -/
noncomputable def slidingInt (r : Rank) (weight : ℕ) (wy wx : ℕ) (m : Mode) (nbits : ℕ) (im : Img ℕ) : Except Err (Img ℕ) :=
  if wy * wx = 0 then .error .runtime
  else match r.index (wy * wx) with
    | .error e => .error e
    | .ok k => .ok ⟨im.ny, im.nx, fun y x =>
        let b : ℤ := ⌊(sorted (windowVals m wy wx ⟨im.ny, im.nx, fun y x => (im.get y x : ℝ)⟩ y x)).getD k 0⌋
        (((im.get y x : ℤ) - weight * b) % (2 ^ nbits : ℕ)).toNat⟩

/-- Argument `window_shape` of the temporal filters. -/
inductive WindowShape where
  | none
  | int (n : ℤ)
  | tuple (l : List ℤ)
  | list (l : List ℤ)
  | other

/-- 163-185 `_calcul_windowshape` (3D arrays).  The result is the argument `size` of the filter. -/
def calculWindowshape (nbImgs : ℕ) (w : WindowShape) : Except Err (List ℤ) :=
  if nbImgs ≤ 1 then .error .valueError
  else match w with
    | .none => .ok [nbImgs, 1, 1]
    | .int n => .ok [n, 1, 1]
    | .other => .error .valueError
    | .tuple l => if l.length = 2 then .ok (nbImgs :: l) else match l with
      | [] => .error .indexError
      | a :: _ => if a ≤ 1 then .error .valueError else .ok l
    | .list l => if l.length = 2 then .error .typeError else match l with
      | [] => .error .indexError
      | a :: _ => if a ≤ 1 then .error .valueError else .ok l

/-- 188-256 the temporal filters, for a 3D array.  No clipping. -/
noncomputable def temporal (r : Rank) (weight : ℝ) (w : WindowShape) (s : Stack) : Except Err Stack :=
  match calculWindowshape s.ims.length w with
  | .error e => .error e
  | .ok size =>
    match size with
    | [wt, wy, wx] =>
      if wt ≤ 0 ∨ wy ≤ 0 ∨ wx ≤ 0 then .error .runtime
      else
        let (wt, wy, wx) := (wt.toNat, wy.toNat, wx.toNat)
        match r.index (wt * wy * wx) with
        | .error e => .error e
        | .ok k => .ok ⟨.float, s.ims.mapIdx fun t im => ⟨im.ny, im.nx, fun y x =>
            im.get y x - weight * (sorted (windowVals3 wt wy wx s.ims t y x)).getD k 0⟩⟩
    | _ => .error .runtime

/-! ## `rescale_intensity_tanh` -/

/-- The pixels of an image. -/
def pixels (im : Img ℝ) : List ℝ := (List.range im.ny).flatMap fun y => (List.range im.nx).map fun x => im.get y x

/-- `np.max` -/
noncomputable def maxOf : List ℝ → Except Err ℝ
  | [] => .error .valueError
  | v :: l => .ok (l.foldl max v)

/-- `img ** 2` in the type of the array. -/
noncomputable def square (d : DType) (v : ℝ) : ℝ :=
  match d with
  | .float => v ^ 2
  | .int lo hi => (((⌊v ^ 2⌋ - lo) % (hi - lo + 1) + lo : ℤ) : ℝ)

/-- 331-355 `rescale_intensity_tanh` (without the decorator).  A division by `np.max(img_out) = 0` gives NaN or infinite
values: it is an error in the model. -/
noncomputable def rescaleTanh (threshold : Option ℝ) (a : Arr) : Except Err Arr :=
  let threshold := match threshold with
    | none => 2 * Real.sqrt (((pixels a.im).map (square a.dtype)).sum / ((pixels a.im).length : ℝ))
    | some t => t
  if threshold = 0 then .ok a
  else
    match maxOf (pixels a.im), maxOf ((pixels a.im).map fun v => Real.tanh (v / threshold)) with
    | .ok m, .ok mt =>
      if mt = 0 then .error .runtime
      else .ok ⟨.float, ⟨a.im.ny, a.im.nx, fun y x => ⌊m / mt * Real.tanh (a.im.get y x / threshold)⌋⟩⟩
    | _, _ => .error .valueError

/-! ## `_toolbox_cv.py` -/

/-- 31-60 `sliding_median` of the OpenCV backend: the median of the image converted to 8 bits, no clipping.  `blur` is
`cv2.medianBlur`. -/
def slidingMedianCV (blur : Img ℕ → Img ℕ) (weight : ℚ) (im : Img ℕ) : Img ℚ :=
  let b := blur ⟨im.ny, im.nx, fun y x => im.get y x % 256⟩
  ⟨im.ny, im.nx, fun y x => (im.get y x : ℚ) - weight * (b.get y x : ℚ)⟩

end Verif.PreprocTools
