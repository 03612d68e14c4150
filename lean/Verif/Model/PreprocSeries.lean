import Verif.Model.PreprocTools

/-!
# Model of the decorators of the preprocessing tools, for the different ways to give images

`/repo/src/fluidimage/works/preproc/io.py` 13-83.  The decorators (package `decorator`) give all arguments by position, with the default
values, so that 14-15 and 25-26 are never used (`img=...` is the first positional argument).  The tools give images of the size of their
argument, so that the assignment of line 62 does not fail.  Arrays of 0 and 1 dimension are not modelled.
-/

namespace Verif.PreprocSeries
open Verif Verif.PivGrid Verif.PreprocTools

/-- The class of a sequence of images. -/
inductive Kind where
  | list | tuple
deriving DecidableEq

/-- What is given to a tool: an array of 2, 3 or 4 dimensions, a sequence of images, or no image (`None`, the default value). -/
inductive Input where
  | array2 (a : Arr)
  | array3 (s : Stack)
  | array4 (l : List Stack)
  | seq (k : Kind) (l : List Arr)
  | none

inductive Output where
  | array2 (a : Arr)
  | array3 (s : Stack)
  | array4 (l : List Stack)
  | seq (k : Kind) (l : List Arr)

/-- `np.empty_like(sequence)` and `np.array(sequence)` raise `ValueError` if the sizes of the images are different. -/
def sameSizes : List Arr → Bool
  | [] => true
  | a :: l => l.all fun b => b.im.ny == a.im.ny && b.im.nx == a.im.nx

/-- io.py 60-62: the loop over the images of a sequence. -/
def seqLoop (tool : Arr → Except Err Arr) : List Arr → Except Err (List (Img ℝ))
  | [] => .ok []
  | a :: l => match tool a with
    | .error e => .error e
    | .ok out => match seqLoop tool l with
      | .error e => .error e
      | .ok outs => .ok (out.im :: outs)

/-- io.py 60-62: the loop over the arrays of 3 dimensions of an array of 4 dimensions. -/
def stacksLoop (tool3 : Stack → Except Err Stack) : List Stack → Except Err (List Stack)
  | [] => .ok []
  | s :: l => match tool3 s with
    | .error e => .error e
    | .ok out => match stacksLoop tool3 l with
      | .error e => .error e
      | .ok outs => .ok (⟨.float, out.ims⟩ :: outs)

/-- io.py 46-64 `iterate_multiple_imgs`; `tool3`: what the function gives for an array of 3 dimensions. -/
def iterateInput (tool : Arr → Except Err Arr) (tool3 : Stack → Except Err Stack) : Input → Except Err Output
  | .array2 a => match tool a with                                           -- 55-57
    | .error e => .error e
    | .ok out => .ok (.array2 out)
  | .array3 s => match iterate tool s with
    | .error e => .error e
    | .ok out => .ok (.array3 out)
  | .array4 l => match stacksLoop tool3 l with
    | .error e => .error e
    | .ok outs => .ok (.array4 outs)
  | .seq _ l =>
    if !sameSizes l then .error .valueError                                  -- 59
    else match seqLoop tool l with
      | .error e => .error e
      | .ok outs => .ok (.array3 ⟨.float, outs⟩)
  | .none => .error .typeError                                               -- 60

/-- Type of `np.array(sequence)`: a type which contains the types of the images. -/
def commonType : List Arr → DType
  | [] => .float
  | [a] => a.dtype
  | a :: l => match a.dtype, commonType l with
    | .int lo hi, .int lo' hi' => .int (min lo lo') (max hi hi')
    | _, _ => .float

/-- io.py 67-83 `multiple_imgs_as_ndarray`, for the temporal filters (_toolbox_py.py 188-256). -/
noncomputable def temporalInput (r : Rank) (weight : ℝ) (w : WindowShape) : Input → Except Err Output
  | .array3 s => match temporal r weight w s with                             -- 76-77
    | .error e => .error e
    | .ok out => .ok (.array3 out)
  | .array2 _ => .error .valueError                                           -- _toolbox_py.py 165-169
  | .array4 _ => .error .runtime                                              -- three sizes for four axes
  | .seq k l =>
    if !sameSizes l then .error .valueError                                   -- 79
    else match temporal r weight w ⟨commonType l, l.map Arr.im⟩ with
      | .error e => .error e
      | .ok out => .ok (.seq k (out.ims.map fun im => ⟨.float, im⟩))           -- 83
  | .none => .error .indexError                                               -- np.array(None).shape[0]

/-- _toolbox_py.py 87-91 and the two other sliding filters for an array of 3 dimensions, with an integer as size of the window (the three
axes have this size) and the mode "reflect". -/
noncomputable def sliding3 (r : Rank) (weight : ℝ) (w : ℕ) (s : Stack) : Except Err Stack :=
  if w = 0 then .error .runtime
  else match r.index (w * w * w) with
    | .error e => .error e
    | .ok k => .ok ⟨.float, s.ims.mapIdx fun t im => ⟨im.ny, im.nx, fun y x =>
        let v := im.get y x - weight * (sorted (windowVals3 w w w s.ims t y x)).getD k 0
        if v < 0 then 0 else v⟩⟩

/-- A colour image, as it is read in a file: an array of 3 dimensions (lines, columns, colours), i.e. a list of arrays (columns, colours). -/
structure Colour where
  dtype : DType
  ny : ℕ
  nx : ℕ
  nc : ℕ
  get : ℕ → ℕ → ℕ → ℝ

/-- The array of 3 dimensions. -/
def Colour.toStack (c : Colour) : Stack := ⟨c.dtype, (List.range c.ny).map fun y => ⟨c.nx, c.nc, c.get y⟩⟩

end Verif.PreprocSeries
