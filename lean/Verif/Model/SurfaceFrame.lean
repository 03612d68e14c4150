import Mathlib.Data.List.Sort
import Verif.Model.PivGrid

/-!
# Model of the processing of one frame by the surface tracking

`/repo/src/fluidimage/works/surface_tracking.py`: 245-277 `compute_kx` (the mean reference frame), 313-335
`get_borders`, 337-363 `merge_cropped_frame`, 387-405 `frame_normalize`, 407-451 `process_frame`, 453-486 `process_frame_func`.

Numbers are rationals, `none` is a number which is not finite (or, in an array of integers, what the conversion of such a
number gives).  The computation of the phase from the normalised frame (446-450: Fourier transforms, argument, `np.unwrap`) is a
parameter.  The limits of the window are natural numbers with `xmin ≤ xmax`, `ymin ≤ ymax`.  The broadcasting of arrays with
dimensions equal to 1 is not modelled: different shapes are an error.
-/

namespace Verif.SurfaceFrame
open Verif Verif.PivGrid

/-- Type of the numbers of an array. -/
inductive Dtype where
  | float
  | uint (bits : Nat)
deriving DecidableEq

/-- Conversion of a float when it is written in an array: truncation for the integers (the values written here are not
negative). -/
def Dtype.store : Dtype → Option ℚ → Option ℚ
  | .float, v => v
  | .uint bits, v => v.map (fun q => ((⌊q⌋ % (2 ^ bits : Nat) : Int) : ℚ))

/-- A 2D NumPy array. -/
structure Arr where
  dtype : Dtype
  im : Img (Option ℚ)

/-- Sum of numbers, some of which may not be finite. -/
def sumAll : List (Option ℚ) → Option ℚ
  | [] => some 0
  | none :: _ => none
  | some v :: l => (sumAll l).map (v + ·)

/-- Quotient of floats: not finite for a null divisor. -/
def quot : Option ℚ → Option ℚ → Option ℚ
  | some a, some b => if b = 0 then none else some (a / b)
  | _, _ => none

/-- Difference of floats. -/
def minus : Option ℚ → Option ℚ → Option ℚ
  | some a, some b => some (a - b)
  | _, _ => none

/-- The numbers of a line. -/
def row (im : Img (Option ℚ)) (i : Nat) : List (Option ℚ) := (List.range im.nx).map (im.get i)

/-- The numbers of an array, line by line. -/
def rows (im : Img (Option ℚ)) : List (List (Option ℚ)) := (List.range im.ny).map (row im)

/-- 401: `np.mean(frame, axis=1)[i]` -/
def rowMean (im : Img (Option ℚ)) (i : Nat) : Option ℚ := quot (sumAll (row im i)) (some im.nx)

/-- 404: `np.mean(frame)` -/
def meanAll (im : Img (Option ℚ)) : Option ℚ :=
  quot (sumAll ((List.range im.ny).flatMap (row im))) (some ((im.ny * im.nx : Nat) : ℚ))

/-- 402-403: the loop over the columns, which changes the array given to the function; the means of the lines were computed
before. -/
def divideLines (a : Arr) : Arr :=
  ⟨a.dtype, ⟨a.im.ny, a.im.nx, fun i j => a.dtype.store (quot (a.im.get i j) (rowMean a.im i))⟩⟩

/-- 404-405: the array returned. -/
def subtractMean (im : Img (Option ℚ)) : Img (Option ℚ) :=
  ⟨im.ny, im.nx, fun i j => minus (im.get i j) (meanAll im)⟩

/-- 387-405 `frame_normalize`: the array given to the function after the call, and the array returned. -/
def frameNormalize (a : Arr) : Arr × Img (Option ℚ) := (divideLines a, subtractMean (divideLines a).im)

/-! ## Borders of the structure -/

/-- `np.argmax` of a line of zeros and ones: index of the first one, 0 if there is none. -/
def argmaxFirst (l : List Bool) : Nat := if true ∈ l then l.findIdx id else 0

/-- `np.median` of natural numbers. -/
def median (l : List Nat) : Option ℚ :=
  let s := l.insertionSort (· ≤ ·)
  match s[(l.length - 1) / 2]?, s[l.length / 2]? with
  | some a, some b => some ((a + b : ℚ) / 2)
  | _, _ => none

/-- 329: one line of `frame > self.thres`. -/
def aboveRow (thres : ℚ) (im : Img (Option ℚ)) (i : Nat) : List Bool :=
  (row im i).map fun v => match v with | some q => decide (thres < q) | none => false

/-- 313-335 `get_borders`.  `int` of a median which is not a number (no line) is an error. -/
def getBorders (thres : ℚ) (im : Img (Option ℚ)) : Except PyErr (Int × Int) :=
  let a := (List.range im.ny).map fun i => argmaxFirst (aboveRow thres im i)
  let b := (List.range im.ny).map fun i => argmaxFirst (aboveRow thres im i).reverse
  match median a, median b with
  | some xmin, some bMed => .ok (⌊xmin⌋, ⌊(im.nx : ℚ) - bMed⌋)
  | _, _ => .error .valueError

/-! ## The work -/

/-- The attributes read: limits of the window, `crop_edge` and `thres` (300, line 196). -/
structure Params where
  xmin : Nat
  xmax : Nat
  ymin : Nat
  ymax : Nat
  cropEdge : Bool
  thres : ℚ := 300

/-- 353-355: the right border used. -/
def adjustMax (p : Params) (xMax : Int) : Int := if xMax ≥ p.xmax then (p.xmax : Int) - 1 else xMax

/-- 356-358: the left border used. -/
def adjustMin (p : Params) (xMin : Int) : Int := if xMin ≤ p.xmin then p.xmin else xMin

/-- 360-362: assignment of `frame` to the columns `start:stop` of `ref`. -/
def assignColumns (ref : Img (Option ℚ)) (start stop : Int) (frame : Img (Option ℚ)) : Except PyErr (Img (Option ℚ)) :=
  let s := sliceBound ref.nx start
  let e := sliceBound ref.nx stop
  if frame.ny = ref.ny ∧ frame.nx = e - s then
    .ok ⟨ref.ny, ref.nx, fun i j => if s ≤ j ∧ j < e then frame.get i (j - s) else ref.get i j⟩
  else .error .valueError

/-- 337-363 `merge_cropped_frame`: the array returned **is** the attribute `self.ref` (359), which is changed. -/
def mergeCroppedFrame (p : Params) (ref frame : Img (Option ℚ)) (xMin xMax : Int) : Except PyErr (Img (Option ℚ)) :=
  let xMax := adjustMax p xMax
  let xMin := adjustMin p xMin
  assignColumns ref (xMin - p.xmin) (-((p.xmax : Int) - xMax)) (frame.slice p.ymin p.ymax xMin xMax)

/-- What the call changes and returns: the attribute `self.ref`, the array given to the function, the phase and the borders. -/
structure Out (P : Type) where
  ref : Img (Option ℚ)
  array : Arr
  phase : P
  shape : Int × Int

/-- 443-445, without crop: the lines and columns of the window are changed in the array given (`frame` is a view of it). -/
def writeWindow (array : Arr) (ymin xmin : Nat) (w : Img (Option ℚ)) : Arr :=
  ⟨array.dtype, ⟨array.im.ny, array.im.nx, fun i j =>
    if ymin ≤ i ∧ i < ymin + w.ny ∧ xmin ≤ j ∧ j < xmin + w.nx then w.get (i - ymin) (j - xmin) else array.im.get i j⟩⟩

/-- 453-486 `process_frame_func` with 443-451.  `phase` is the computation of the phase from the normalised frame.  `self.ref` is an
array of floats (274).  The shape of the frame must be the one of `gain` (385). -/
def processFrameFunc {P : Type} (p : Params) (phase : List (List (Option ℚ)) → P) (ref : Img (Option ℚ)) (array : Arr) :
    Except PyErr (Out P) :=
  if p.cropEdge then
    match getBorders p.thres array.im with
    | .error e => .error e
    | .ok (xMin, xMax) => match mergeCroppedFrame p ref array.im xMin xMax with
      | .error e => .error e
      | .ok merged =>
        let (changed, normalized) := frameNormalize ⟨.float, merged⟩
        .ok ⟨changed.im, array, phase (rows normalized), (xMin, xMax)⟩
  else
    let frame := array.im.slice p.ymin p.ymax p.xmin p.xmax
    if frame.ny = p.ymax - p.ymin ∧ frame.nx = p.xmax - p.xmin then
      let (changed, normalized) := frameNormalize ⟨array.dtype, frame⟩
      .ok ⟨ref, writeWindow array p.ymin p.xmin changed.im, phase (rows normalized), (p.xmin, p.xmax)⟩
    else .error .valueError

/-- The frames are processed one after the other with the same object (the works of a topology): the phases and the borders, or the
exceptions. -/
def processAll {P : Type} (p : Params) (phase : List (List (Option ℚ)) → P) : Img (Option ℚ) → List Arr → List (Except PyErr (P × (Int × Int)))
  | _, [] => []
  | ref, a :: l => match processFrameFunc p phase ref a with
    | .error e => .error e :: processAll p phase ref l
    | .ok o => .ok (o.phase, o.shape) :: processAll p phase o.ref l

/-! ## Reference -/

/-- Sum of two floats. -/
def plus : Option ℚ → Option ℚ → Option ℚ
  | some a, some b => some (a + b)
  | _, _ => none

/-- 266-273: the loop over the reference frames; each one is copied in an array of floats (268) before the normalisation. -/
def sumRef (p : Params) : Img (Option ℚ) → List Arr → Except PyErr (Img (Option ℚ))
  | acc, [] => .ok acc
  | acc, a :: l =>
    let frame := a.im.slice p.ymin p.ymax p.xmin p.xmax
    if frame.ny = acc.ny ∧ frame.nx = acc.nx then
      let normalized := (frameNormalize ⟨.float, frame⟩).2
      sumRef p ⟨acc.ny, acc.nx, fun i j => plus (acc.get i j) (normalized.get i j)⟩ l
    else .error .valueError

/-- 259-274: the attribute `self.ref`; `none`: the attribute is not set (259-261). -/
def computeRef (p : Params) (frames : List Arr) : Except PyErr (Option (Img (Option ℚ))) :=
  if frames.length = 0 then .ok none
  else match sumRef p ⟨p.ymax - p.ymin, p.xmax - p.xmin, fun _ _ => some 0⟩ frames with
    | .error e => .error e
    | .ok s => .ok (some ⟨s.ny, s.nx, fun i j => quot (s.get i j) (some frames.length)⟩)

/-- 229-242: `__init__` computes `self.ref` (232) and reads it in `process_ref` (242, 706). -/
def initWork (p : Params) (frames : List Arr) : Except PyErr (Img (Option ℚ)) :=
  match computeRef p frames with
  | .error e => .error e
  | .ok none => .error .attributeError
  | .ok (some ref) => .ok ref

end Verif.SurfaceFrame
