import Verif.Model.PreprocTools

/-!
# Model of the preprocessing tools of the OpenCV backend

`/repo/src/fluidimage/works/preproc/_toolbox_cv.py` 31-60 (`sliding_median`), 63-92 (`sliding_minima`), 118-144 (`adaptive_threshold`).

The images are arrays of unsigned integers (their conversion to 8 bits keeps the last 8 bits).  `cv2.erode`, `cv2.medianBlur` and
`cv2.adaptiveThreshold` are modelled from the documentation and the sources of OpenCV; the Gaussian mean is a parameter.
-/

namespace Verif.PreprocCv
open Verif.PivGrid Verif.PreprocTools

/-- `img.astype(np.uint8)` -/
def toUint8 (im : Img ℕ) : Img ℕ := ⟨im.ny, im.nx, fun y x => im.get y x % 256⟩

/-- 88 `getattr(cv2, f"BORDER_{boundary_condition.upper()}")`: the borders of OpenCV with the names of scipy.  The borders "wrap" and
"transparent" exist but are refused by the filters (see `erode`). -/
inductive Border where
  | mode (m : Mode)
  | refused
deriving DecidableEq

def border (name : String) : Except Err Border :=
  if name = "reflect" then .ok (.mode .reflect)
  else if name = "default" ∨ name = "reflect101" ∨ name = "reflect_101" then .ok (.mode .mirror)
  else if name = "replicate" then .ok (.mode .nearest)
  else if name = "constant" ∨ name = "isolated" then .ok (.mode .constant)
  else if name = "wrap" ∨ name = "transparent" then .ok .refused
  else .error .attributeError

/-- The modes of scipy, for the argument with the same name of the default backend (`_toolbox_py.py` 87-89, 151-153); another name is a
`RuntimeError`. -/
def scipyMode (name : String) : Except Err Mode :=
  if name = "reflect" then .ok .reflect
  else if name = "constant" then .ok .constant
  else if name = "nearest" then .ok .nearest
  else if name = "mirror" then .ok .mirror
  else if name = "wrap" then .ok .wrap
  else .error .runtime

/-- The values of a window; the positions outside the image (border "constant") are ignored: the default value of the border is the largest
number. -/
def inWindow (m : Mode) (w : ℕ) (im : Img ℕ) (y x : ℕ) : List ℕ :=
  (window m im.ny w y).flatMap fun a => (window m im.nx w x).filterMap fun b =>
    match a, b with
    | some a, some b => some (im.get a b)
    | _, _ => none

/-- `cv2.erode(im, kernel=np.ones((w, w)), borderType=…)`; an empty kernel is a kernel of 3 x 3 points. -/
def erode (m : Mode) (w : ℕ) (im : Img ℕ) : Img ℕ :=
  ⟨im.ny, im.nx, fun y x => ((inWindow m (if w = 0 then 3 else w) im y x).min?).getD 255⟩

/-- Argument `window_size`. -/
inductive WindowSize where
  | int (w : ℕ)
  | tuple (wy wx : ℕ)

/-- 63-92 `sliding_minima`.  87 `np.ones((window_size, window_size))` is a `TypeError` for a tuple. -/
noncomputable def slidingMinima (weight : ℝ) (w : WindowSize) (name : String) (im : Img ℕ) : Except Err (Img ℝ) :=
  match w with
  | .tuple _ _ => .error .typeError
  | .int w =>
    match border name with
    | .error e => .error e
    | .ok .refused => .error .runtime
    | .ok (.mode m) => .ok ⟨im.ny, im.nx, fun y x => (im.get y x : ℝ) - weight * ((erode m w (toUint8 im)).get y x : ℝ)⟩

/-- `cv2.medianBlur(im, w)`: an odd size is needed; the border is "replicate". -/
noncomputable def medianBlur (w : ℕ) (im : Img ℕ) : Except Err (Img ℝ) :=
  if w % 2 = 1 then
    .ok ⟨im.ny, im.nx, fun y x =>
      (sorted (windowVals .nearest w w ⟨im.ny, im.nx, fun y x => (im.get y x : ℝ)⟩ y x)).getD (w * w / 2) 0⟩
  else .error .runtime

/-- 31-60 `sliding_median` (47: `int(window_size)` is a `TypeError` for a tuple). -/
noncomputable def slidingMedian (weight : ℝ) (w : WindowSize) (im : Img ℕ) : Except Err (Img ℝ) :=
  match w with
  | .tuple _ _ => .error .typeError
  | .int w =>
    match medianBlur w (toUint8 im) with
    | .error e => .error e
    | .ok b => .ok ⟨im.ny, im.nx, fun y x => (im.get y x : ℝ) - weight * b.get y x⟩

/-- 118-144 `adaptive_threshold`, for an image of maximum `top` (`img.max()`, saturated to 8 bits by OpenCV); `mean w im`: the Gaussian mean of
an image of 8 bits, rounded. `cv2.adaptiveThreshold`: the pixel is set to `top` if it is larger than the mean minus the offset. -/
def adaptiveThreshold (mean : ℕ → Img ℕ → Img ℕ) (w : ℕ) (offset : ℤ) (top : ℕ) (im : Img ℕ) : Except Err (Img ℕ) :=
  if w % 2 = 1 ∧ 1 < w then
    .ok ⟨im.ny, im.nx, fun y x =>
      if (((toUint8 im).get y x : ℕ) : ℤ) > ((mean w (toUint8 im)).get y x : ℤ) - offset then min top 255 else 0⟩
  else .error .runtime

end Verif.PreprocCv
