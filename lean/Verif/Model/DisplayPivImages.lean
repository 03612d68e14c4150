import Verif.Model.DisplayPre

/-!
# Model of the images in the window of a PIV result

`/repo/src/fluidimage/data_objects/display_piv.py` 70-128 (the images in the constructor of `DisplayPIV`), 247-254 (`onclick`) and 437-447
(`switch`).

The memory, the arrays, `np.percentile` and the pictures are those of `Verif.Model.DisplayPre`.  The arrows are in
`Verif.Model.DisplayPiv`.  Not modelled: the colours of matplotlib, nan, and the limits chosen by matplotlib when there is no image.
-/

namespace Verif.DisplayPivImages
open Verif Verif.DisplayPre Verif.ResultsFiles

/-- `a.copy()`: a new array, with the type and the values of `a`. -/
def copy (h : Heap) (a : Arr) : Heap × Arr :=
  (h ++ [⟨((h[a.buf]?).map Buffer.isInt).getD false, pixels h a⟩], ⟨h.length, List.range a.places.length, a.ny, a.nx⟩)

/-- The axes `ax0` of the window: the images (`none`: `self.image0 = None`), the number in the title, and the limits (`none`: chosen by
matplotlib). -/
structure View where
  images : Option (Picture × Bool × Picture × Bool)
  title : Nat
  xlim : Option (ℚ × ℚ)
  ylim : Option (ℚ × ℚ)

/-- display_piv.py 71-106: percentiles, copies, saturation of the copies, and pictures; the second one is on the extent of the first one. -/
def drawImages (q : ℚ) (h : Heap) (im0 im1 : Arr) : Except PyErr (Heap × Picture × Bool × Picture × Bool) :=
  match percentile q (pixels h im0) with
  | .error e => .error e
  | .ok p0 => match percentile q (pixels h im1) with
    | .error e => .error e
    | .ok p1 =>
      let c0 := copy h im0
      let c1 := copy c0.1 im1
      let h' := clip (clip c1.1 c0.2 p0) c1.2 p1
      .ok (h', ⟨pixels h' c0.2, im0.ny, im0.nx, im0.ny, im0.nx⟩, true, ⟨pixels h' c1.2, im1.ny, im1.nx, im0.ny, im0.nx⟩, false)

/-- display_piv.py 119-123: the default limits. -/
def limits (im0 : Option Arr) (xlim ylim : Option (ℚ × ℚ)) : Option (ℚ × ℚ) × Option (ℚ × ℚ) :=
  match im0 with
  | none => (xlim, ylim)
  | some im => (match xlim with
      | none => some (0, (im.nx : ℚ))
      | some x => some x,
    match ylim with
      | none => some ((im.ny : ℚ), 0)
      | some y => some y)

/-- display_piv.py 70-128: the memory after and the axes.  If only the first image is given, `im1.shape` raises `AttributeError` (after the
percentile of the first one). -/
def openView (q : ℚ) (h : Heap) (im0 im1 : Option Arr) (xlim ylim : Option (ℚ × ℚ)) : Except PyErr (Heap × View) :=
  let lims := limits im0 xlim ylim
  match im0 with
  | none => .ok (h, ⟨none, 0, lims.1, lims.2⟩)
  | some a0 => match im1 with
    | none => match percentile q (pixels h a0) with
      | .error e => .error e
      | .ok _ => .error .attributeError
    | some a1 => match drawImages q h a0 a1 with
      | .error e => .error e
      | .ok (h', im) => .ok (h', ⟨some im, 0, lims.1, lims.2⟩)

/-- display_piv.py 437-447 `switch` -/
def View.switch (v : View) : View :=
  match v.images with
  | none => v
  | some (im0, v0, im1, v1) => { v with images := some (im0, !v0, im1, !v1), title := if !v1 then 1 else 0 }

/-- display_piv.py 247-254 `onclick`: a key, and whether the mouse is in the axes `ax0`. -/
def View.key (v : View) (e : Txt × Bool) : View :=
  if e.2 then (if e.1 = "alt+s".toList then v.switch else v) else v

end Verif.DisplayPivImages
