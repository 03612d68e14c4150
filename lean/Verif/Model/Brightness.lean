import Verif.Py.Basic
import Mathlib.Analysis.SpecialFunctions.Pow.Real

/-!
# Model of the brightness and contrast tools

`/repo/src/fluidimage/works/preproc/_toolbox_py.py` 292-328 (`adaptive_threshold`, `rescale_intensity`), 358-490
(`equalize_hist_*`, `gamma_correction`, `sharpen`), for one image.

An image is the list of its pixels (real numbers).  The functions of scikit-image are represented as follows:
`exposure.rescale_intensity(img, out_range=(a, b))` with its default `in_range="image"` gives floats: the affine map from the
range of the image to `(a, b)`, or the image clipped to `[a, b]` if it is constant; `exposure.adjust_gamma` raises a
`ValueError` for negative pixels, and divides by the scale of the type of the image (1 for floats) before the power;
`filters.threshold_local` is a local mean minus the offset (`ValueError` if the size is even).  The other functions
(`equalize_adapthist`, `rank.equalize`, Gaussian filters) are arbitrary functions.
-/

namespace Verif.Brightness
open Verif

abbrev Pixels := List ℝ

/-- `img.min()`: `ValueError` for an empty image. -/
noncomputable def minOf : Pixels → Except PyErr ℝ
  | [] => .error .valueError
  | v :: l => .ok (l.foldl min v)

/-- `img.max()` -/
noncomputable def maxOf : Pixels → Except PyErr ℝ
  | [] => .error .valueError
  | v :: l => .ok (l.foldl max v)

/-- `np.clip` -/
noncomputable def clip (a b x : ℝ) : ℝ := min (max x a) b

/-- 312-328 `rescale_intensity` -/
noncomputable def rescaleIntensity (minima maxima : ℝ) (im : Pixels) : Except PyErr Pixels :=
  match minOf im, maxOf im with
  | .ok lo, .ok hi =>
    if lo = hi then .ok (im.map (clip minima maxima))
    else .ok (im.map (fun x => (x - lo) / (hi - lo) * (maxima - minima) + minima))
  | _, _ => .error .valueError

/-- 382-408 `equalize_hist_adapt` (`eq`: `exposure.equalize_adapthist`) and 411-437 `equalize_hist_local` (`eq`: conversion in
8 bits and `filters.rank.equalize`). -/
noncomputable def equalize (eq : Pixels → Except PyErr Pixels) (im : Pixels) : Except PyErr Pixels :=
  match minOf im, maxOf im with
  | .ok minimum, .ok maximum =>
    match rescaleIntensity 0 1 im with
    | .error e => .error e
    | .ok im =>
      match eq im with
      | .error e => .error e
      | .ok im => rescaleIntensity minimum maximum im
  | _, _ => .error .valueError

/-- 440-468 `gamma_correction`; `scale`: 1 for floats, 65535 for 16-bit images (the conversion of the result to the type of
the image is not represented). -/
noncomputable def gammaCorrection (scale gamma gain : ℝ) (im : Pixels) : Except PyErr Pixels :=
  if im.any (fun x => decide (x < 0)) then .error .valueError
  else .ok (im.map (fun x => (x / scale) ^ gamma * scale * gain))

/-- 292-309 `adaptive_threshold`; `mean`: the local (Gaussian) mean over `window_size` pixels. -/
noncomputable def adaptiveThreshold (mean : Nat → Pixels → Pixels) (windowSize : Nat) (offset : ℝ) (im : Pixels) :
    Except PyErr Pixels :=
  if windowSize % 2 = 0 then .error .valueError else .ok ((mean windowSize im).map (· - offset))

/-- 471-490 `sharpen`; `smooth sigma`: `ndi.gaussian_filter`. -/
noncomputable def sharpen (smooth : ℝ → Pixels → Pixels) (sigma1 sigma2 alpha : ℝ) (im : Pixels) : Pixels :=
  let blurred := smooth sigma1 im
  let filterBlurred := smooth sigma2 blurred
  List.zipWith (fun b f => b + alpha * (b - f)) blurred filterBlurred

end Verif.Brightness
